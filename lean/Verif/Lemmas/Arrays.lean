import Verif.Spec.Arrays

/-! # Facts about programs that work on stored arrays -/

namespace Ries.Arr

open Ries

/-! ## Programs that leave existing objects alone -/

theorem keeps_pure {α : Type} (x : α) : Keeps (pure x) := fun h => List.prefix_refl h
theorem keeps_throw {α : Type} (e : Err) : Keeps (throw e : M α) := fun h => List.prefix_refl h
theorem keeps_alloc (c : Cell) : Keeps (alloc c) := fun h => List.prefix_append h _
theorem keeps_getCell (a : ℕ) : Keeps (getCell a) := fun h => by
  unfold getCell; split <;> exact List.prefix_refl h

theorem keeps_bind {α β : Type} {m : M α} {f : α → M β} (hm : Keeps m) (hf : ∀ x, Keeps (f x)) : Keeps (m >>= f) := fun h => by
  have h1 := hm h
  show h <+: (match m h with
    | (.ok x, h') => f x h'
    | (.error e, h') => (.error e, h')).2
  revert h1
  rcases m h with ⟨r, h'⟩
  intro h1
  cases r with
  | error e => exact h1
  | ok x => exact h1.trans (hf x h')

theorem keeps_allocE (r : Except Err (List ℝ)) : Keeps (allocE r) := by
  cases r
  · exact keeps_throw _
  · exact keeps_alloc _

theorem keeps_op2 (f : ℝ → ℝ → ℝ) (v w : AVal) : Keeps (op2 f v w) := by
  cases v <;> cases w
  · exact keeps_pure _
  · refine keeps_bind (keeps_getCell _) fun c => ?_
    cases c
    · exact keeps_alloc _
    · exact keeps_throw _
  · refine keeps_bind (keeps_getCell _) fun c => ?_
    cases c
    · exact keeps_alloc _
    · exact keeps_throw _
  · refine keeps_bind (keeps_getCell _) fun c => keeps_bind (keeps_getCell _) fun d => ?_
    cases c <;> cases d
    · exact keeps_allocE _
    · exact keeps_allocE _
    · exact keeps_allocE _
    · exact keeps_throw _

theorem keeps_op1 (f : ℝ → ℝ) (v : AVal) : Keeps (op1 f v) := by
  cases v
  · exact keeps_pure _
  · refine keeps_bind (keeps_getCell _) fun c => ?_
    cases c <;> exact keeps_alloc _

/-! ## Programs that may write to objects created after a certain moment -/

/-- Started in an extension of `h0`, the program ends in an extension of `h0`, and a value it returns satisfies `Q`. -/
def Stays {α : Type} (h0 : Store) (m : M α) (Q : α → Prop) : Prop :=
  ∀ h, h0 <+: h → h0 <+: (m h).2 ∧ ∀ x, (m h).1 = .ok x → Q x

theorem Keeps.stays {α : Type} {m : M α} (hm : Keeps m) (h0 : Store) : Stays h0 m fun _ => True :=
  fun h hh => ⟨hh.trans (hm h), fun _ _ => trivial⟩

theorem stays_bind {α β : Type} {h0 : Store} {m : M α} {f : α → M β} {Q : α → Prop} {R : β → Prop} (hm : Stays h0 m Q)
    (hf : ∀ x, Q x → Stays h0 (f x) R) : Stays h0 (m >>= f) R := fun h hh => by
  obtain ⟨h1, h2⟩ := hm h hh
  show h0 <+: (match m h with
    | (.ok x, h') => f x h'
    | (.error e, h') => (.error e, h')).2 ∧ ∀ x, (match m h with
    | (.ok x, h') => f x h'
    | (.error e, h') => (.error e, h')).1 = .ok x → R x
  revert h1 h2
  rcases m h with ⟨r, h'⟩
  intro h1 h2
  cases r with
  | error e => exact ⟨h1, fun x hx => by simp at hx⟩
  | ok x => exact hf x (h2 x rfl) h' h1

theorem stays_pure {α : Type} {h0 : Store} {Q : α → Prop} {x : α} (hx : Q x) : Stays h0 (pure x) Q := fun h hh =>
  ⟨hh, fun y hy => by cases hy; exact hx⟩

theorem stays_throw {α : Type} {h0 : Store} {Q : α → Prop} (e : Err) : Stays h0 (throw e : M α) Q := fun h hh =>
  ⟨hh, fun y hy => by cases hy⟩

theorem stays_alloc {h0 : Store} (c : Cell) : Stays h0 (alloc c) (Fresh h0) := fun h hh =>
  ⟨hh.trans (List.prefix_append h _), fun y hy => by cases hy; exact hh.length_le⟩

theorem stays_write {h0 : Store} {a : ℕ} (ha : h0.length ≤ a) (xs : List ℝ) : Stays h0 (write a xs) fun _ => True := fun h hh => by
  refine ⟨?_, fun _ _ => trivial⟩
  obtain ⟨t, rfl⟩ := hh
  show h0 <+: (h0 ++ t).set a _
  rw [List.set_append, if_neg (by omega)]
  exact List.prefix_append _ _

theorem stays_getCell {h0 : Store} (a : ℕ) : Stays h0 (getCell a) fun _ => True := (keeps_getCell a).stays h0

theorem stays_op2 {h0 : Store} (f : ℝ → ℝ → ℝ) (v w : AVal) : Stays h0 (op2 f v w) (Fresh h0) := by
  have hE : ∀ r, Stays h0 (allocE r) (Fresh h0) := fun r => by
    cases r
    · exact stays_throw _
    · exact stays_alloc _
  cases v <;> cases w
  · exact stays_pure trivial
  · refine stays_bind (stays_getCell _) fun c _ => ?_
    cases c
    · exact stays_alloc _
    · exact stays_throw _
  · refine stays_bind (stays_getCell _) fun c _ => ?_
    cases c
    · exact stays_alloc _
    · exact stays_throw _
  · refine stays_bind (stays_getCell _) fun c _ => stays_bind (stays_getCell _) fun d _ => ?_
    cases c <;> cases d
    · exact hE _
    · exact hE _
    · exact hE _
    · exact stays_throw _

theorem stays_iadd {h0 : Store} {v : AVal} (hv : Fresh h0 v) (w : AVal) : Stays h0 (iadd v w) (Fresh h0) := by
  cases v with
  | num x => exact stays_op2 _ _ _
  | ref a =>
    have hw : ∀ xs, Stays h0 (do write a xs; pure (AVal.ref a)) (Fresh h0) := fun xs =>
      stays_bind (stays_write hv xs) fun _ _ => stays_pure hv
    cases w with
    | num y =>
      refine stays_bind (stays_getCell _) fun c _ => ?_
      cases c
      · exact hw _
      · exact stays_throw _
    | ref b =>
      refine stays_bind (stays_getCell _) fun c _ => stays_bind (stays_getCell _) fun d _ => ?_
      cases c with
      | list _ => exact stays_throw _
      | array xs =>
        cases d with
        | list _ => exact stays_throw _
        | array ys =>
          show Stays h0 (if xs.length = ys.length then _ else _) _
          split
          · exact hw _
          · split
            · exact hw _
            · exact stays_throw _

theorem stays_callLoop {h0 : Store} (rs : List AObj) (hr : ∀ r ∈ rs, ∀ E, Keeps (r.call E)) (E : AVal) :
    ∀ (ss : List ℝ) (acc : AVal), Fresh h0 acc → Stays h0 (AObj.callLoop rs ss acc E) (Fresh h0) := by
  induction rs with
  | nil => exact fun ss acc ha => by rw [AObj.callLoop]; exact stays_pure ha
  | cons r rs ih =>
    intro ss acc ha
    cases ss with
    | nil => rw [AObj.callLoop]; exact stays_throw _
    | cons s ss =>
      rw [AObj.callLoop]
      refine stays_bind ((hr r (by simp) E).stays h0) fun v _ => ?_
      refine stays_bind (stays_op2 _ _ _) fun p _ => ?_
      refine stays_bind (stays_iadd ha p) fun acc' ha' => ?_
      exact ih (fun r' h' => hr r' (by simp [h'])) ss acc' ha'

theorem keeps_call {o : AObj} (ho : Gentle o) : ∀ E, Keeps (o.call E) := by
  induction ho with
  | leaf h => intro E; rw [AObj.call]; exact h E
  | const v => intro E; rw [AObj.call]; exact keeps_pure _
  | wsum _ ih =>
    intro E h
    rw [AObj.call]
    exact (stays_callLoop _ ih E _ (.num 0) trivial h (List.prefix_refl h)).1

/-! ## Values -/

theorem getElem?_of_prefix {h h' : Store} (p : h <+: h') {a : ℕ} {c : Cell} (ha : h[a]? = some c) : h'[a]? = some c := by
  obtain ⟨t, rfl⟩ := p
  rw [List.getElem?_append_left]
  · exact ha
  · exact (List.getElem?_eq_some_iff.1 ha).1

theorem Shows.mono {h h' : Store} {v : AVal} {ys : List ℝ} (hs : Shows h v ys) (p : h <+: h') : Shows h' v ys := by
  cases v with
  | num c => exact hs
  | ref a => exact getElem?_of_prefix p hs

theorem bind_ok {α β : Type} {m : M α} {f : α → M β} {h h' : Store} {x : α} (e : m h = (.ok x, h')) : (m >>= f) h = f x h' := by
  show (match m h with
    | (.ok x, h') => f x h'
    | (.error e, h') => (.error e, h')) = _
  rw [e]

theorem bind_error {α β : Type} {m : M α} {f : α → M β} {h h' : Store} {r : Err} (e : m h = (.error r, h')) :
    (m >>= f) h = (.error r, h') := by
  show (match m h with
    | (.ok x, h') => f x h'
    | (.error e, h') => (.error e, h')) = _
  rw [e]

/-- The program, started in `h`, succeeds, keeps all objects, and returns a value that shows these numbers. -/
def Good (h : Store) (m : M AVal) (ys : List ℝ) : Prop := ∃ v h', m h = (.ok v, h') ∧ h <+: h' ∧ Shows h' v ys

theorem good_bind {h : Store} {m : M AVal} {f : AVal → M AVal} {ys zs : List ℝ} (hm : Good h m ys)
    (hf : ∀ v h', h <+: h' → Shows h' v ys → Good h' (f v) zs) : Good h (m >>= f) zs := by
  obtain ⟨v, h', e, p, s⟩ := hm
  obtain ⟨w, h'', e', p', s'⟩ := hf v h' p s
  exact ⟨w, h'', by rw [bind_ok e]; exact e', p.trans p', s'⟩

theorem good_pure {h : Store} {v : AVal} {ys : List ℝ} (hs : Shows h v ys) : Good h (pure v) ys := ⟨v, h, rfl, List.prefix_refl h, hs⟩

theorem good_alloc (h : Store) (ys : List ℝ) : Good h (alloc (.array ys)) ys :=
  ⟨.ref h.length, h ++ [.array ys], rfl, List.prefix_append h _, by simp [Shows]⟩

theorem getCell_ok {h : Store} {a : ℕ} {c : Cell} (ha : h[a]? = some c) : getCell a h = (.ok c, h) := by
  simp [getCell, ha]

theorem map_const_left {ys : List ℝ} {c : ℝ} {xs : List ℝ} (hc : ∀ x ∈ xs, x = c) (hl : xs.length = ys.length) (f : ℝ → ℝ → ℝ) :
    ys.map (f c) = List.zipWith f xs ys := by
  induction xs generalizing ys with
  | nil => cases ys <;> simp_all
  | cons x xs ih =>
    cases ys with
    | nil => simp at hl
    | cons y ys =>
      simp only [List.map_cons, List.zipWith_cons_cons]
      rw [ih (fun x h => hc x (by simp [h])) (by simpa using hl), hc x (by simp)]

theorem map_const_right {ys : List ℝ} {c : ℝ} {xs : List ℝ} (hc : ∀ y ∈ ys, y = c) (hl : xs.length = ys.length) (f : ℝ → ℝ → ℝ) :
    xs.map (f · c) = List.zipWith f xs ys := by
  induction xs generalizing ys with
  | nil => cases ys <;> simp_all
  | cons x xs ih =>
    cases ys with
    | nil => simp at hl
    | cons y ys =>
      simp only [List.map_cons, List.zipWith_cons_cons]
      rw [ih (fun z h => hc z (List.mem_cons_of_mem _ h)) (by simpa using hl), hc y (by simp)]

theorem zip_const {xs ys : List ℝ} {a b : ℝ} (hx : ∀ x ∈ xs, x = a) (hy : ∀ y ∈ ys, y = b) (f : ℝ → ℝ → ℝ) :
    ∀ z ∈ List.zipWith f xs ys, z = f a b := by
  intro z hz
  obtain ⟨i, hi, rfl⟩ := List.getElem_of_mem hz
  rw [List.getElem_zipWith, hx _ (List.getElem_mem _), hy _ (List.getElem_mem _)]

theorem good_op2 {h : Store} {v w : AVal} {xs ys : List ℝ} (hv : Shows h v xs) (hw : Shows h w ys) (hl : xs.length = ys.length)
    (f : ℝ → ℝ → ℝ) : Good h (op2 f v w) (List.zipWith f xs ys) := by
  cases v with
  | num a =>
    cases w with
    | num b => exact good_pure (zip_const hv hw f)
    | ref b =>
      rw [← map_const_left hv hl f]
      obtain ⟨v, h', e, p, s⟩ := good_alloc h (ys.map (f a))
      refine ⟨v, h', ?_, p, s⟩
      rw [op2, bind_ok (getCell_ok hw)]
      exact e
  | ref a =>
    cases w with
    | num b =>
      rw [← map_const_right hw hl f]
      obtain ⟨v, h', e, p, s⟩ := good_alloc h (xs.map (f · b))
      refine ⟨v, h', ?_, p, s⟩
      rw [op2, bind_ok (getCell_ok hv)]
      exact e
    | ref b =>
      obtain ⟨v, h', e, p, s⟩ := good_alloc h (List.zipWith f xs ys)
      refine ⟨v, h', ?_, p, s⟩
      rw [op2, bind_ok (getCell_ok hv), bind_ok (getCell_ok hw)]
      show allocE (zipB f xs ys) h = _
      unfold zipB
      rw [if_pos hl]
      exact e

theorem good_op1 {h : Store} {v : AVal} {xs : List ℝ} (hv : Shows h v xs) (f : ℝ → ℝ) : Good h (op1 f v) (xs.map f) := by
  cases v with
  | num a =>
    refine good_pure fun y hy => ?_
    obtain ⟨x, hx, rfl⟩ := List.mem_map.1 hy
    rw [hv x hx]
  | ref a =>
    obtain ⟨v, h', e, p, s⟩ := good_alloc h (xs.map f)
    refine ⟨v, h', ?_, p, s⟩
    rw [op1, bind_ok (getCell_ok hv)]
    exact e

/-- `op2` and `op1` on values that show functions of common energies -/
theorem good2 {h : Store} {v w : AVal} {Es : List ℝ} {f g : ℝ → ℝ} (F : ℝ → ℝ → ℝ) (hv : Shows h v (Es.map f))
    (hw : Shows h w (Es.map g)) : Good h (op2 F v w) (Es.map fun e => F (f e) (g e)) := by
  have := good_op2 hv hw (by simp) F
  rwa [List.zipWith_map, List.zipWith_self] at this

theorem good1 {h : Store} {v : AVal} {Es : List ℝ} {f : ℝ → ℝ} (F : ℝ → ℝ) (hv : Shows h v (Es.map f)) :
    Good h (op1 F v) (Es.map fun e => F (f e)) := by
  have := good_op1 hv F
  rwa [List.map_map] at this

theorem shows_num (h : Store) (c : ℝ) (Es : List ℝ) : Shows h (.num c) (Es.map fun _ => c) := fun y hy => by
  obtain ⟨_, _, rfl⟩ := List.mem_map.1 hy
  rfl

theorem shows_id {h : Store} {a : ℕ} {Es : List ℝ} (ha : h[a]? = some (.array Es)) : Shows h (.ref a) (Es.map fun e => e) := by
  simpa [Shows] using ha

/-! ## The loop of a weighted sum -/

theorem getElem?_set_of_prefix {h0 h : Store} (p : h0 <+: h) {a : ℕ} (ha : h0.length ≤ a) (c : Cell) {i : ℕ} {d : Cell}
    (hi : h0[i]? = some d) : (h.set a c)[i]? = some d := by
  have hlt := (List.getElem?_eq_some_iff.1 hi).1
  rw [List.getElem?_set_ne (by omega)]
  exact getElem?_of_prefix p hi

theorem prefix_set {h0 h : Store} (p : h0 <+: h) {a : ℕ} (ha : h0.length ≤ a) (c : Cell) : h0 <+: h.set a c := by
  obtain ⟨t, rfl⟩ := p
  rw [List.set_append, if_neg (by omega)]
  exact List.prefix_append _ _

/-- `acc += p` where `acc` was created after `h0`: the objects of `h0` are kept, the result shows the sums -/
theorem good_iadd {h0 h : Store} {v w : AVal} {xs ys : List ℝ} (p0 : h0 <+: h) (hf : Fresh h0 v) (hv : Shows h v xs) (hw : Shows h w ys)
    (hl : xs.length = ys.length) :
    ∃ u h', iadd v w h = (.ok u, h') ∧ h0 <+: h' ∧ Fresh h0 u ∧ Shows h' u (List.zipWith (· + ·) xs ys) := by
  cases v with
  | num x =>
    obtain ⟨u, h', e, p, s⟩ := good_op2 hv hw hl (· + ·)
    refine ⟨u, h', by rw [iadd]; exact e, p0.trans p, ?_, s⟩
    have := (stays_op2 (h0 := h0) (· + ·) (.num x) w h p0).2 u
    rw [e] at this
    exact this rfl
  | ref a =>
    have hlt := (List.getElem?_eq_some_iff.1 hv).1
    cases w with
    | num y =>
      refine ⟨.ref a, h.set a (.array (xs.map (· + y))), ?_, prefix_set p0 hf _, hf, ?_⟩
      · rw [iadd, bind_ok (getCell_ok hv)]
        rfl
      · rw [← map_const_right hw hl (· + ·)]
        simp [Shows, hlt]
    | ref b =>
      refine ⟨.ref a, h.set a (.array (List.zipWith (· + ·) xs ys)), ?_, prefix_set p0 hf _, hf, ?_⟩
      · rw [iadd, bind_ok (getCell_ok hv), bind_ok (getCell_ok hw)]
        show (if xs.length = ys.length then _ else _ : M AVal) h = _
        rw [if_pos hl]
        rfl
      · simp [Shows, hlt]

/-- what the value and the effect of an object are on an array of energies -/
def Pointwise (K : List ℝ → Cell) (o : AObj) (f : ℝ → ℝ) (Es : List ℝ) : Prop :=
  ∀ h a, h[a]? = some (K Es) → ∃ v h', o.call (.ref a) h = (.ok v, h') ∧ h <+: h' ∧ Shows h' v (Es.map f)

/-- what the loop does with a running sum created after `h0` -/
def LoopPointwise (K : List ℝ → Cell) (rs : List AObj) (ss : List ℝ) (g : ℝ → ℝ) (Es : List ℝ) : Prop :=
  ∀ h0 a, h0[a]? = some (K Es) → ∀ h acc (k : ℝ → ℝ), h0 <+: h → Fresh h0 acc → Shows h acc (Es.map k) →
    ∃ v h', AObj.callLoop rs ss acc (.ref a) h = (.ok v, h') ∧ h0 <+: h' ∧ Fresh h0 v ∧ Shows h' v (Es.map fun e => k e + g e)

theorem evaluates_array {K : List ℝ → Cell} {S : Set ℝ} {o : AObj} {f : ℝ → ℝ} (ho : Evaluates K S o f) {Es : List ℝ} (hE : ∀ e ∈ Es, e ∈ S) :
    Pointwise K o f Es ∧ ∀ rs ss, o = .wsum rs ss → LoopPointwise K rs ss f Es := by
  induction ho with
  | leaf hp => exact ⟨fun h a ha => by rw [AObj.call]; exact hp.sequence h a Es ha hE, by simp⟩
  | const c =>
    refine ⟨fun h a _ => ⟨.num c, h, by rw [AObj.call]; rfl, List.prefix_refl h, shows_num h c Es⟩, by simp⟩
  | empty ss =>
    refine ⟨fun h a _ => ⟨.num 0, h, by rw [AObj.call, AObj.callLoop]; rfl, List.prefix_refl h, shows_num h 0 Es⟩, ?_⟩
    rintro rs ss' h0 h a ha h acc k p hf hs
    cases h0
    exact ⟨acc, h, by rw [AObj.callLoop]; rfl, p, hf, by simpa using hs⟩
  | @cons r rs ss f g s hr hrs ihr ihrs =>
    have hl : LoopPointwise K (r :: rs) (s :: ss) (fun e => s * f e + g e) Es := by
      intro h0 a ha h acc k p hf hs
      obtain ⟨v, h1, e1, p1, s1⟩ := ihr.1 h a (getElem?_of_prefix p ha)
      obtain ⟨w, h2, e2, p2, s2⟩ := good2 (· * ·) (shows_num h1 s Es) s1
      obtain ⟨u, h3, e3, p3, f3, s3⟩ := good_iadd (p.trans (p1.trans p2)) hf (hs.mono (p1.trans p2)) s2 (by simp)
      rw [List.zipWith_map, List.zipWith_self] at s3
      obtain ⟨x, h4, e4, p4, f4, s4⟩ := ihrs.2 rs ss rfl h0 a ha h3 u _ p3 f3 s3
      refine ⟨x, h4, ?_, p4, f4, ?_⟩
      · rw [AObj.callLoop, bind_ok e1, bind_ok e2, bind_ok e3]
        exact e4
      · convert s4 using 3
        ring
    refine ⟨fun h a ha => ?_, ?_⟩
    · obtain ⟨v, h', e, p, _, sh⟩ := hl h a ha h (.num 0) (fun _ => 0) (List.prefix_refl h) trivial (shows_num h 0 Es)
      exact ⟨v, h', by rw [AObj.call]; exact e, p, by simpa using sh⟩
    · rintro rs' ss' he
      cases he
      exact hl

theorem op2_num (F : ℝ → ℝ → ℝ) (x y : ℝ) (h : Store) : op2 F (.num x) (.num y) h = (.ok (.num (F x y)), h) := rfl
theorem op1_num (F : ℝ → ℝ) (x : ℝ) (h : Store) : op1 F (.num x) h = (.ok (.num (F x)), h) := rfl

theorem evaluates_number {K : List ℝ → Cell} {S : Set ℝ} {o : AObj} {f : ℝ → ℝ} (ho : Evaluates K S o f) {e : ℝ} (he : e ∈ S) :
    (∀ h, o.call (.num e) h = (.ok (.num (f e)), h)) ∧
    ∀ rs ss, o = .wsum rs ss → ∀ h x, AObj.callLoop rs ss (.num x) (.num e) h = (.ok (.num (x + f e)), h) := by
  induction ho with
  | leaf hp => exact ⟨fun h => by rw [AObj.call]; exact hp.number e he h, by simp⟩
  | const c => exact ⟨fun h => by rw [AObj.call]; rfl, by simp⟩
  | empty ss =>
    refine ⟨fun h => by rw [AObj.call, AObj.callLoop]; rfl, ?_⟩
    rintro rs ss' h0 h x
    cases h0
    rw [AObj.callLoop, add_zero]
    rfl
  | @cons r rs ss f g s hr hrs ihr ihrs =>
    have hl : ∀ h x, AObj.callLoop (r :: rs) (s :: ss) (.num x) (.num e) h = (.ok (.num (x + (s * f e + g e))), h) := by
      intro h x
      rw [AObj.callLoop, bind_ok (ihr.1 h), bind_ok (op2_num _ _ _ h), bind_ok (show iadd (.num x) (.num (s * f e)) h = _ from rfl)]
      rw [ihrs.2 rs ss rfl h _, add_assoc]
    refine ⟨fun h => ?_, ?_⟩
    · rw [AObj.call, hl, zero_add]
    · rintro rs' ss' heq
      cases heq
      exact hl

theorem evaluates_call {K : List ℝ → Cell} {S : Set ℝ} {o : AObj} {f : ℝ → ℝ} (ho : Evaluates K S o f) : Vectorised K S o.call f :=
  ⟨fun _ he h => (evaluates_number ho he).1 h, fun h a _ ha hE => (evaluates_array ho hE).1 h a ha⟩

/-! ## A returned array exists -/

/-- a number or the address of an existing object -/
def Valid (h : Store) : AVal → Prop
  | .num _ => True
  | .ref a => a < h.length

theorem Valid.mono {h h' : Store} {v : AVal} (hv : Valid h v) (hl : h.length ≤ h'.length) : Valid h' v := by
  cases v with
  | num _ => trivial
  | ref a => exact lt_of_lt_of_le hv hl

/-- started in `h`, the program does not shrink the store, and what it returns exists afterwards -/
def Exists (h : Store) (m : M AVal) : Prop := h.length ≤ (m h).2.length ∧ ∀ x, (m h).1 = .ok x → Valid (m h).2 x

theorem exists_bind {α : Type} {h : Store} {m : M α} {f : α → M AVal} (hm : h.length ≤ (m h).2.length)
    (hf : ∀ x h', m h = (.ok x, h') → Exists h' (f x)) : Exists h (m >>= f) := by
  rcases e : m h with ⟨r, h'⟩
  rw [e] at hm
  cases r with
  | error r =>
    unfold Exists
    rw [bind_error e]
    exact ⟨hm, fun x hx => by cases hx⟩
  | ok x =>
    have := hf x h' e
    unfold Exists at this ⊢
    rw [bind_ok e]
    exact ⟨hm.trans this.1, this.2⟩

theorem exists_pure {h : Store} {v : AVal} (hv : Valid h v) : Exists h (pure v) := ⟨le_refl _, fun x hx => by cases hx; exact hv⟩
theorem exists_throw (h : Store) (e : Err) : Exists h (throw e) := ⟨le_refl _, fun x hx => by cases hx⟩
theorem exists_alloc (h : Store) (c : Cell) : Exists h (alloc c) :=
  ⟨by simp [alloc], fun x hx => by cases hx; simp [Valid, alloc]⟩

theorem getCell_length (h : Store) (a : ℕ) : h.length ≤ (getCell a h).2.length := (keeps_getCell a h).length_le

theorem getCell_inv {h h' : Store} {a : ℕ} {c : Cell} (e : getCell a h = (.ok c, h')) : h' = h ∧ h[a]? = some c := by
  unfold getCell at e
  split at e
  · cases e
    exact ⟨rfl, by assumption⟩
  · cases e

theorem exists_op2 (h : Store) (f : ℝ → ℝ → ℝ) (v w : AVal) : Exists h (op2 f v w) := by
  have hE : ∀ h r, Exists h (allocE r) := fun h r => by
    cases r
    · exact exists_throw _ _
    · exact exists_alloc _ _
  cases v <;> cases w
  · exact exists_pure trivial
  · refine exists_bind (getCell_length _ _) fun c h' _ => ?_
    cases c
    · exact exists_alloc _ _
    · exact exists_throw _ _
  · refine exists_bind (getCell_length _ _) fun c h' _ => ?_
    cases c
    · exact exists_alloc _ _
    · exact exists_throw _ _
  · refine exists_bind (getCell_length _ _) fun c h' _ => exists_bind (getCell_length _ _) fun d h'' _ => ?_
    cases c <;> cases d
    · exact hE _ _
    · exact hE _ _
    · exact hE _ _
    · exact exists_throw _ _

theorem exists_iadd {h : Store} {v : AVal} (hv : Valid h v) (w : AVal) : Exists h (iadd v w) := by
  cases v with
  | num x => exact exists_op2 h _ _ _
  | ref a =>
    have hw : ∀ h', h' = h → ∀ xs, Exists h' (do write a xs; pure (AVal.ref a)) := fun h' e xs => by
      subst e
      refine exists_bind (by simp [write]) fun _ h'' e => ?_
      cases e
      exact exists_pure (by simpa [Valid] using hv)
    cases w with
    | num y =>
      refine exists_bind (getCell_length _ _) fun c h' e => ?_
      cases c
      · exact hw _ (getCell_inv e).1 _
      · exact exists_throw _ _
    | ref b =>
      refine exists_bind (getCell_length _ _) fun c h' e => exists_bind (getCell_length _ _) fun d h'' e' => ?_
      have hh : h'' = h := (getCell_inv e').1.trans (getCell_inv e).1
      cases c with
      | list _ => exact exists_throw _ _
      | array xs =>
        cases d with
        | list _ => exact exists_throw _ _
        | array ys =>
          show Exists h'' (if xs.length = ys.length then _ else _)
          split
          · exact hw _ hh _
          · split
            · exact hw _ hh _
            · exact exists_throw _ _

theorem exists_callLoop (rs : List AObj) (hr : ∀ r ∈ rs, ∀ E, Keeps (r.call E)) (E : AVal) :
    ∀ (ss : List ℝ) (acc : AVal) (h : Store), Valid h acc → Exists h (AObj.callLoop rs ss acc E) := by
  induction rs with
  | nil => exact fun ss acc h ha => by rw [AObj.callLoop]; exact exists_pure ha
  | cons r rs ih =>
    intro ss acc h ha
    cases ss with
    | nil => rw [AObj.callLoop]; exact exists_throw _ _
    | cons s ss =>
      rw [AObj.callLoop]
      have h1 := (hr r (by simp) E h).length_le
      refine exists_bind h1 fun v h' e => ?_
      rw [e] at h1
      have h2 := (keeps_op2 (· * ·) (.num s) v h').length_le
      refine exists_bind h2 fun p h'' e' => ?_
      rw [e'] at h2
      have h3 := exists_iadd (h := h'') (ha.mono (h1.trans h2)) p
      refine exists_bind h3.1 fun acc' h3' e3 => ?_
      have := h3.2 acc'
      rw [e3] at this
      exact ih (fun r' h' => hr r' (by simp [h'])) ss acc' h3' (this rfl)

end Ries.Arr
