import Verif.Lemmas.Arrays

/-! # The evaluation programs of the classes on arrays and lists -/

namespace Ries.Arr

open Ries

theorem good_op1_seq {K : List ℝ → Cell} (hK : K = .array ∨ K = .list) {h : Store} {a : ℕ} {Es : List ℝ} (ha : h[a]? = some (K Es))
    (f : ℝ → ℝ) : Good h (op1 f (.ref a)) (Es.map f) := by
  obtain ⟨v, h', e, p, s⟩ := good_alloc h (Es.map f)
  refine ⟨v, h', ?_, p, s⟩
  rw [op1, bind_ok (getCell_ok ha)]
  rcases hK with rfl | rfl <;> exact e

theorem vec_op1 {K : List ℝ → Cell} (hK : K = .array ∨ K = .list) (S : Set ℝ) (f : ℝ → ℝ) : Vectorised K S (op1 f) f :=
  ⟨fun _ _ _ => rfl, fun _ _ _ ha _ => good_op1_seq hK ha f⟩

/-- absolute energies -/
theorem vec_resonance_abs {K : List ℝ → Cell} {S : Set ℝ} (ics er : ℝ) {pdf : AVal → M AVal} {f : ℝ → ℝ}
    (hp : Vectorised K S pdf f) : Vectorised K S (resonanceCall ics er pdf true) fun e => ics * f e := by
  constructor
  · intro e he h
    show (pdf (.num e) >>= fun p => op2 (· * ·) (.num ics) p) h = _
    rw [bind_ok (hp.number e he h)]
    rfl
  · intro h a Es ha hE
    show Good h (pdf (.ref a) >>= fun p => op2 (· * ·) (.num ics) p) _
    refine good_bind (hp.sequence h a Es ha hE) fun v h' _ hv => ?_
    exact good2 (· * ·) (shows_num _ ics Es) hv

/-- energies relative to the resonance energy -/
theorem vec_resonance_rel {S : Set ℝ} (ics er : ℝ) {pdf : AVal → M AVal} {f : ℝ → ℝ}
    (hp : Vectorised .array S pdf f) :
    Vectorised .array ((· + er) ⁻¹' S) (resonanceCall ics er pdf false) fun e => ics * f (e + er) := by
  constructor
  · intro e he h
    show (pdf (.num (e + er)) >>= fun p => op2 (· * ·) (.num ics) p) h = _
    rw [bind_ok (hp.number (e + er) he h)]
    rfl
  · intro h a Es ha hE
    show Good h (op2 (· + ·) (.ref a) (.num er) >>= fun E' => pdf E' >>= fun p => op2 (· * ·) (.num ics) p) _
    have h1 : op2 (· + ·) (.ref a) (.num er) h = (.ok (.ref h.length), h ++ [.array (Es.map (· + er))]) := by
      rw [op2, bind_ok (getCell_ok ha)]
      rfl
    obtain ⟨v, h2, e2, p2, s2⟩ := hp.sequence (h ++ [.array (Es.map (· + er))]) h.length (Es.map (· + er)) (by simp)
      (fun e he => by obtain ⟨e', he', rfl⟩ := List.mem_map.1 he; exact hE e' he')
    rw [List.map_map] at s2
    obtain ⟨w, h3, e3, p3, s3⟩ := good2 (f := fun _ => ics) (· * ·) (shows_num h2 ics Es) s2
    refine ⟨w, h3, ?_, ((List.prefix_append h _).trans p2).trans p3, s3⟩
    rw [bind_ok h1, bind_ok e2]
    exact e3

theorem vec_pvPdf {K : List ℝ → Cell} (hK : K = .array ∨ K = .list) (d : PV) : Vectorised K Set.univ (pvPdf d) d.pdfR := by
  constructor
  · intro e _ h
    rfl
  · intro h a Es ha _
    unfold pvPdf
    refine good_bind (good_op1_seq hK ha _) fun n h1 p1 hn => ?_
    refine good_bind (good2 (· * ·) (shows_num _ (1 - d.eta) Es) hn) fun x h2 p2 hx => ?_
    refine good_bind (good_op1_seq hK (getElem?_of_prefix (p1.trans p2) ha) _) fun c h3 p3 hc => ?_
    refine good_bind (good2 (· * ·) (shows_num _ d.eta Es) hc) fun b h4 p4 hb => ?_
    exact good2 (· + ·) (hx.mono (p3.trans p4)) hb

theorem vec_voigtPdf (er : ℝ) (profile : ℝ → ℝ) :
    Vectorised .array Set.univ (voigtPdf er profile) fun e => profile (e - er) := by
  constructor
  · intro e _ h
    rfl
  · intro h a Es ha _
    unfold voigtPdf
    refine good_bind (good2 (· - ·) (shows_id ha) (shows_num _ er Es)) fun d h1 p1 hd => ?_
    exact good1 profile hd

theorem vec_xrmac {K : List ℝ → Cell} (hK : K = .array ∨ K = .list) (interp : ℝ → ℝ) :
    Vectorised K {E | 0 < E} (xrmacCallA interp) fun E => (10 : ℝ) ^ interp (Real.logb 10 E) := by
  constructor
  · intro e _ h
    rfl
  · intro h a Es ha _
    unfold xrmacCallA
    refine good_bind (good_op1_seq hK ha _) fun x h1 p1 hx => ?_
    refine good_bind (good1 interp hx) fun y h2 p2 hy => ?_
    exact good2 (fun a b => a ^ b) (shows_num _ 10 Es) hy

theorem vec_kn (k : PhysConst) (s : KN) : Vectorised .array {E | 0 < E} (knCall k s) (s.total k) := by
  constructor
  · intro e _ h
    rfl
  · intro h a Es ha _
    have hE := shows_id ha
    show Good h (knCall k s (.ref a)) _
    unfold knCall
    refine good_bind (good2 (· / ·) hE (shows_num _ s.mc2 Es)) fun _ _ p hx => ?_
    refine good_bind (good1 (fun x => x ^ (-3 : ℤ)) hx) fun _ _ p hc => ?_
    replace hx := hx.mono p
    refine good_bind (good2 (· * ·) (shows_num _ ((Real.pi * s.scale k)) Es) hc) fun _ _ p ha => ?_
    replace hx := hx.mono p
    refine good_bind (good2 (· * ·) (shows_num _ 2 Es) hx) fun _ _ p hx2 => ?_
    replace hx := hx.mono p
    replace ha := ha.mono p
    refine good_bind (good2 (· + ·) (shows_num _ 1 Es) hx) fun _ _ p hx1 => ?_
    replace hx := hx.mono p
    replace ha := ha.mono p
    replace hx2 := hx2.mono p
    refine good_bind (good2 (· * ·) hx hx1) fun _ _ p hxx => ?_
    replace hx := hx.mono p
    replace ha := ha.mono p
    replace hx2 := hx2.mono p
    refine good_bind (good2 (· + ·) (shows_num _ 8 Es) hx) fun _ _ p hx8 => ?_
    replace hx := hx.mono p
    replace ha := ha.mono p
    replace hx2 := hx2.mono p
    replace hxx := hxx.mono p
    refine good_bind (good2 (· * ·) hxx hx8) fun _ _ p hy => ?_
    replace hx := hx.mono p
    replace ha := ha.mono p
    replace hx2 := hx2.mono p
    refine good_bind (good2 (· + ·) (shows_num _ 2 Es) hy) fun _ _ p hy2 => ?_
    replace hx := hx.mono p
    replace ha := ha.mono p
    replace hx2 := hx2.mono p
    refine good_bind (good2 (· * ·) hx2 hy2) fun _ _ p hn => ?_
    replace hx := hx.mono p
    replace ha := ha.mono p
    refine good_bind (good2 (· * ·) (shows_num _ 2 Es) hx) fun _ _ p hx2q => ?_
    replace hx := hx.mono p
    replace ha := ha.mono p
    replace hn := hn.mono p
    refine good_bind (good2 (· + ·) (shows_num _ 1 Es) hx2q) fun _ _ p hd => ?_
    replace hx := hx.mono p
    replace ha := ha.mono p
    replace hn := hn.mono p
    refine good_bind (good1 (· ^ 2) hd) fun _ _ p hdd => ?_
    replace hx := hx.mono p
    replace ha := ha.mono p
    replace hn := hn.mono p
    refine good_bind (good2 (· / ·) hn hdd) fun _ _ p hq => ?_
    replace hx := hx.mono p
    replace ha := ha.mono p
    refine good_bind (good2 (· - ·) hx (shows_num _ 2 Es)) fun _ _ p hu => ?_
    replace hx := hx.mono p
    replace ha := ha.mono p
    replace hq := hq.mono p
    refine good_bind (good2 (· * ·) hu hx) fun _ _ p hux => ?_
    replace hx := hx.mono p
    replace ha := ha.mono p
    replace hq := hq.mono p
    refine good_bind (good2 (· - ·) hux (shows_num _ 2 Es)) fun _ _ p hv => ?_
    replace hx := hx.mono p
    replace ha := ha.mono p
    replace hq := hq.mono p
    refine good_bind (good2 (· * ·) (shows_num _ 2 Es) hx) fun _ _ p hx2qq => ?_
    replace ha := ha.mono p
    replace hq := hq.mono p
    replace hv := hv.mono p
    refine good_bind (good2 (· + ·) (shows_num _ 1 Es) hx2qq) fun _ _ p hdq => ?_
    replace ha := ha.mono p
    replace hq := hq.mono p
    replace hv := hv.mono p
    refine good_bind (good1 Real.log hdq) fun _ _ p hl => ?_
    replace ha := ha.mono p
    replace hq := hq.mono p
    replace hv := hv.mono p
    refine good_bind (good2 (· * ·) hv hl) fun _ _ p hw => ?_
    replace ha := ha.mono p
    replace hq := hq.mono p
    refine good_bind (good2 (· + ·) hq hw) fun _ _ p hb => ?_
    replace ha := ha.mono p
    exact good2 (· * ·) ha hb

/-! ## No class changes an existing object -/

theorem keeps_resonance (ics er : ℝ) {pdf : AVal → M AVal} (hp : ∀ v, Keeps (pdf v)) (b : Bool) (E : AVal) :
    Keeps (resonanceCall ics er pdf b E) := by
  have hj : ∀ E', Keeps (pdf E' >>= fun p => op2 (· * ·) (.num ics) p) := fun E' => keeps_bind (hp E') fun p => keeps_op2 _ _ _
  cases b
  · exact keeps_bind (keeps_op2 _ _ _) hj
  · exact keeps_bind (keeps_pure _) hj

theorem keeps_pvPdf (d : PV) (E : AVal) : Keeps (pvPdf d E) :=
  keeps_bind (keeps_op1 _ _) fun _ => keeps_bind (keeps_op2 _ _ _) fun _ => keeps_bind (keeps_op1 _ _) fun _ =>
    keeps_bind (keeps_op2 _ _ _) fun _ => keeps_op2 _ _ _

theorem keeps_voigtPdf (er : ℝ) (profile : ℝ → ℝ) (E : AVal) : Keeps (voigtPdf er profile E) :=
  keeps_bind (keeps_op2 _ _ _) fun _ => keeps_op1 _ _

theorem keeps_xrmac (interp : ℝ → ℝ) (E : AVal) : Keeps (xrmacCallA interp E) :=
  keeps_bind (keeps_op1 _ _) fun _ => keeps_bind (keeps_op1 _ _) fun _ => keeps_op2 _ _ _

theorem keeps_kn (k : PhysConst) (s : KN) (E : AVal) : Keeps (knCall k s E) := by
  unfold knCall
  repeat' first
    | exact keeps_op2 _ _ _
    | refine keeps_bind (keeps_op2 _ _ _) fun _ => ?_
    | refine keeps_bind (keeps_op1 _ _) fun _ => ?_

/-! ## Grids and Darboux sums -/

theorem stays_assignEnds {h0 : Store} {g : AVal} (hg : Fresh h0 g) (a b : ℝ) : Stays h0 (assignEnds g a b) fun _ => True := by
  cases g with
  | num x => exact stays_throw _
  | ref i =>
    refine stays_bind (stays_getCell _) fun c _ => ?_
    cases c with
    | list _ => exact stays_throw _
    | array xs =>
      match xs with
      | [] => exact stays_throw _
      | [_] => exact stays_write hg _
      | _ :: _ :: _ => exact stays_write hg _

theorem stays_probGrid {h0 : Store} {cdf ppf : AVal → M AVal} (hc : ∀ v, Keeps (cdf v))
    (hp : ∀ q, Fresh h0 q → Stays h0 (ppf q) (Fresh h0)) (ls : ℝ → ℝ → List ℝ) (lim : ℕ) :
    Stays h0 (probGridA cdf ppf ls lim) (Fresh h0) := by
  unfold probGridA
  refine stays_bind ((hc _).stays h0) fun l _ => ?_
  cases l with
  | num _ => exact stays_throw _
  | ref i =>
    refine stays_bind (stays_getCell _) fun c _ => ?_
    have main : ∀ l0 l1, Stays h0 (do
        let qs ← alloc (.array (ls l0 l1))
        let g ← ppf qs
        match ← getCell lim with
        | .array (a :: b :: _) => do
            assignEnds g a b
            pure g
        | .list (a :: b :: _) => do
            assignEnds g a b
            pure g
        | _ => throw .indexError) (Fresh h0) := fun l0 l1 => by
      refine stays_bind (stays_alloc _) fun q hq => stays_bind (hp q hq) fun g hg => stays_bind (stays_getCell _) fun d _ => ?_
      split
      · exact stays_bind (stays_assignEnds hg _ _) fun _ _ => stays_pure hg
      · exact stays_bind (stays_assignEnds hg _ _) fun _ _ => stays_pure hg
      · exact stays_throw _
    split
    · exact main _ _
    · exact stays_throw _

theorem stays_entriesOf {h0 : Store} (v : AVal) : Stays h0 (entriesOf v) fun _ => True := by
  cases v with
  | num _ => exact stays_throw _
  | ref a => exact stays_bind (stays_getCell _) fun _ _ => stays_pure trivial

theorem stays_assign {h0 : Store} {v : AVal} (hv : Fresh h0 v) (xs : List ℝ) : Stays h0 (assign v xs) fun _ => True := by
  cases v with
  | num _ => exact stays_throw _
  | ref a => exact stays_write hv xs

theorem stays_liftE {α : Type} {h0 : Store} (r : Except Err α) : Stays h0 (liftE r) fun _ => True := by
  cases r
  · exact stays_throw _
  · exact stays_pure trivial

theorem keeps_darboux {f : AVal → M AVal} (hf : ∀ v, Keeps (f v)) (x : AVal) : Keeps (darbouxA f x) := by
  intro h0
  have : Stays h0 (darbouxA f x) fun _ => True := by
    unfold darbouxA
    refine stays_bind (stays_entriesOf _) fun xs _ => stays_bind (stays_alloc _) fun r _ => stays_bind (stays_op2 _ _ _) fun d _ =>
      stays_bind (stays_entriesOf _) fun ds _ => stays_bind ((hf _).stays h0) fun fx _ => stays_bind (stays_entriesOf _) fun ys _ => ?_
    cases ys with
    | nil => exact stays_throw _
    | cons y ys =>
      exact stays_bind (stays_alloc _) fun r0 h1 => stays_bind (stays_alloc _) fun r1 h2 => stays_bind (stays_assign h1 _) fun _ _ =>
        stays_bind (stays_assign h2 _) fun _ _ => stays_bind (stays_entriesOf _) fun _ _ => stays_bind (stays_entriesOf _) fun _ _ =>
        stays_bind (stays_liftE _) fun _ _ => stays_bind (stays_liftE _) fun _ _ => stays_pure trivial
  exact (this h0 (List.prefix_refl _)).1

theorem entriesOf_ok {h : Store} {a : ℕ} {c : Cell} (ha : h[a]? = some c) : entriesOf (.ref a) h = (.ok c.entries, h) := by
  rw [entriesOf, bind_ok (getCell_ok ha)]
  rfl

theorem length_roll1 (xs : List ℝ) : (roll1 xs).length = xs.length := by
  unfold roll1
  rcases List.eq_nil_or_concat xs with rfl | ⟨ys, y, rfl⟩ <;> simp

/-- the store version of `darboux` returns what the version on values returns -/
theorem darbouxA_value {K : List ℝ → Cell} (hK : K = .array ∨ K = .list) {f : AVal → M AVal} {g : ℝ → ℝ}
    (hf : ∀ h a Es, h[a]? = some (K Es) → ∃ i h', f (.ref a) h = (.ok (.ref i), h') ∧ h <+: h' ∧ h'[i]? = some (.array (Es.map g)))
    (h : Store) (a : ℕ) (xs : List ℝ) (ha : h[a]? = some (K xs)) :
    (darbouxA f (.ref a) h).1 = darboux (vectorised g) xs := by
  have hent : (K xs).entries = xs := by rcases hK with rfl | rfl <;> rfl
  have h1 : alloc (.array (roll1 xs)) h = (.ok (.ref h.length), h ++ [.array (roll1 xs)]) := rfl
  set s1 := h ++ [Cell.array (roll1 xs)] with hs1
  have ha1 : s1[a]? = some (K xs) := getElem?_of_prefix (List.prefix_append _ _) ha
  have hr1 : s1[h.length]? = some (.array (roll1 xs)) := by simp [hs1]
  have h2 : op2 (· - ·) (.ref a) (.ref h.length) s1 = (.ok (.ref s1.length), s1 ++ [.array (List.zipWith (· - ·) xs (roll1 xs))]) := by
    rw [op2, bind_ok (getCell_ok ha1), bind_ok (getCell_ok hr1)]
    have : zipB (· - ·) xs (roll1 xs) = .ok (List.zipWith (· - ·) xs (roll1 xs)) := by
      unfold zipB
      rw [if_pos (length_roll1 xs).symm]
    rcases hK with rfl | rfl
    · show allocE (zipB (· - ·) xs (roll1 xs)) s1 = _
      rw [this]
      rfl
    · show allocE (zipB (· - ·) xs (roll1 xs)) s1 = _
      rw [this]
      rfl
  set s2 := s1 ++ [Cell.array (List.zipWith (· - ·) xs (roll1 xs))] with hs2
  have ha2 : s2[a]? = some (K xs) := getElem?_of_prefix (List.prefix_append _ _) ha1
  have hd2 : s2[s1.length]? = some (.array (List.zipWith (· - ·) xs (roll1 xs))) := by simp [hs2]
  obtain ⟨i, s3, h3, p3, hi⟩ := hf s2 a xs ha2
  unfold darbouxA
  rw [bind_ok (entriesOf_ok ha), hent, bind_ok h1, bind_ok h2, bind_ok (entriesOf_ok hd2), bind_ok h3, bind_ok (entriesOf_ok hi)]
  cases xs with
  | nil => rfl
  | cons x xs =>
    set ds := List.zipWith (· - ·) (x :: xs) (roll1 (x :: xs)) with hds
    have e1 : alloc (.array (List.replicate (xs.map g).length 0)) s3 = (.ok (.ref s3.length), s3 ++ [.array (List.replicate (xs.map g).length 0)]) := rfl
    set z := Cell.array (List.replicate (xs.map g).length 0) with hz
    show (((alloc z >>= fun row0 => alloc z >>= fun row1 => assign row0 ((g x :: xs.map g).dropLast) >>= fun _ =>
      assign row1 (xs.map g) >>= fun _ => entriesOf row0 >>= fun lo => entriesOf row1 >>= fun hi =>
      liftE (bmul (List.zipWith min lo hi) (ds.drop 1)) >>= fun l => liftE (bmul (List.zipWith max lo hi) (ds.drop 1)) >>= fun u =>
      pure (l.sum, |u.sum - l.sum|) : M (ℝ × ℝ))) s3).1 = _
    rw [bind_ok e1, bind_ok (show alloc z (s3 ++ [z]) = (.ok (.ref (s3 ++ [z]).length), s3 ++ [z] ++ [z]) from rfl)]
    rw [bind_ok (show assign (.ref s3.length) ((g x :: xs.map g).dropLast) (s3 ++ [z] ++ [z]) = (.ok (), s3 ++ [.array ((g x :: xs.map g).dropLast)] ++ [z]) by
      simp [assign, write])]
    rw [bind_ok (show assign (.ref (s3 ++ [z]).length) (xs.map g) (s3 ++ [.array ((g x :: xs.map g).dropLast)] ++ [z]) =
      (.ok (), s3 ++ [.array ((g x :: xs.map g).dropLast)] ++ [.array (xs.map g)]) by
      simp [assign, write])]
    rw [bind_ok (entriesOf_ok (c := .array ((g x :: xs.map g).dropLast)) (by simp)), bind_ok (entriesOf_ok (c := .array (xs.map g)) (by simp))]
    simp only [darboux, vectorised, diffs, List.map_cons, Cell.entries, ← hds, List.drop_one, List.tail_cons]
    rcases bmul (List.zipWith min (g x :: xs.map g).dropLast (xs.map g)) ds.tail with e | l
    · rfl
    · rcases bmul (List.zipWith max (g x :: xs.map g).dropLast (xs.map g)) ds.tail with e | u
      · rfl
      · rfl

end Ries.Arr
