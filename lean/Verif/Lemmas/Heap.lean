import Verif.Model.Heap
import Verif.Lemmas.CrossSection
import Verif.Spec.Heap
import Mathlib.Data.List.Basic
import Mathlib.Tactic.Linarith
import Mathlib.Tactic.Tauto

/-!
# Lemmas on the store model
-/

namespace Ries.Heap

open Ries

theorem bind_def {α β : Type} (m : M α) (f : α → M β) (h : Store) :
    (m >>= f) h = match m h with
      | (.ok x, h') => f x h'
      | (.error e, h') => (.error e, h') := rfl

theorem bind_ok {α β : Type} {m : M α} {f : α → M β} {h h' : Store} {x : α}
    (e : m h = (.ok x, h')) : (m >>= f) h = f x h' := by
  rw [bind_def, e]

theorem bind_err {α β : Type} {m : M α} {f : α → M β} {h h' : Store} {x : Err}
    (e : m h = (.error x, h')) : (m >>= f) h = (.error x, h') := by
  rw [bind_def, e]

theorem pure_def {α : Type} (x : α) (h : Store) : (pure x : M α) h = (.ok x, h) := rfl

/-! ## Frame -/

/-- `m` leaves the first `n` cells alone, and its results satisfy `Q`. -/
def Frame {α : Type} (n : ℕ) (Q : α → Prop) (m : M α) : Prop :=
  ∀ h, n ≤ h.length → n ≤ (m h).2.length ∧ (∀ a < n, (m h).2[a]? = h[a]?) ∧
    ∀ x, (m h).1 = .ok x → Q x

theorem Frame.pure {α : Type} {n : ℕ} {Q : α → Prop} {x : α} (hx : Q x) :
    Frame n Q (Pure.pure x : M α) := by
  intro h hn
  refine ⟨hn, fun _ _ => rfl, fun y hy => ?_⟩
  have : (Except.ok x : Except Err α) = .ok y := hy
  cases this
  exact hx

theorem Frame.throw {α : Type} {n : ℕ} {Q : α → Prop} {e : Err} :
    Frame n Q (Heap.throw e : M α) := by
  intro h hn
  exact ⟨hn, fun _ _ => rfl, fun y hy => by simp [Heap.throw] at hy⟩

theorem Frame.bind {α β : Type} {n : ℕ} {P : α → Prop} {Q : β → Prop} {m : M α} {f : α → M β}
    (hm : Frame n P m) (hf : ∀ x, P x → Frame n Q (f x)) : Frame n Q (m >>= f) := by
  intro h hn
  obtain ⟨h1, h2, h3⟩ := hm h hn
  rcases e : m h with ⟨r, h'⟩
  rw [e] at h1 h2 h3
  rcases r with er | x
  · rw [bind_err e]
    exact ⟨h1, h2, fun y hy => by simp at hy⟩
  · rw [bind_ok e]
    obtain ⟨g1, g2, g3⟩ := hf x (h3 x rfl) h' h1
    exact ⟨g1, fun a ha => (g2 a ha).trans (h2 a ha), g3⟩

theorem Frame.alloc {n : ℕ} {c : Cell} : Frame n (fun a => n ≤ a) (Heap.alloc c) := by
  intro h hn
  refine ⟨by simp [Heap.alloc]; omega, fun a ha => ?_, fun x hx => ?_⟩
  · simp only [Heap.alloc]
    rw [List.getElem?_append_left (by omega)]
  · simp only [Heap.alloc, Except.ok.injEq] at hx
    omega

theorem Frame.getCell {n a : ℕ} : Frame n (fun _ => True) (Heap.getCell a) := by
  intro h hn
  unfold Heap.getCell
  split <;> exact ⟨hn, fun _ _ => rfl, fun _ _ => trivial⟩

theorem Frame.getList {n a : ℕ} : Frame n (fun _ => True) (Heap.getList a) := by
  intro h hn
  unfold Heap.getList
  split <;> exact ⟨hn, fun _ _ => rfl, fun _ _ => trivial⟩

theorem Frame.append {n a : ℕ} {v : HVal} (ha : n ≤ a) :
    Frame n (fun _ => True) (Heap.append a v) := by
  intro h hn
  unfold Heap.append
  split
  · refine ⟨by simpa using hn, fun b hb => ?_, fun _ _ => trivial⟩
    rw [List.getElem?_set_ne (by omega)]
  · exact ⟨hn, fun _ _ => rfl, fun _ _ => trivial⟩

theorem Frame.mono {α : Type} {n : ℕ} {P Q : α → Prop} {m : M α} (hm : Frame n P m)
    (h : ∀ x, P x → Q x) : Frame n Q m := fun st hn =>
  ⟨(hm st hn).1, (hm st hn).2.1, fun x hx => h x ((hm st hn).2.2 x hx)⟩

theorem Frame.newWsum {n r s : ℕ} : Frame n (fun _ => True) (Heap.newWsum r s) := by
  unfold Heap.newWsum
  refine Frame.getList.bind fun rs _ => ?_
  refine Frame.bind (P := fun _ => True) ?_ fun r' _ => Frame.alloc.bind fun w _ => Frame.pure trivial
  split
  · exact Frame.alloc.mono fun _ _ => trivial
  · exact Frame.pure trivial

theorem Frame.csAdd {n a : ℕ} {o : HVal} : Frame n (fun _ => True) (Heap.csAdd a o) := by
  unfold Heap.csAdd
  refine Frame.bind (P := fun _ => True) ?_ fun o' _ =>
    Frame.alloc.bind fun r _ => Frame.alloc.bind fun s _ => Frame.newWsum
  split
  · exact Frame.alloc.bind fun k _ => Frame.pure trivial
  · exact Frame.pure trivial

theorem Frame.copyLoop {n dr ds s : ℕ} (hr : n ≤ dr) (hs : n ≤ ds) (rs : List HVal) (i : ℕ) :
    Frame n (fun _ => True) (Heap.copyLoop dr ds s rs i) := by
  induction rs generalizing i with
  | nil => exact Frame.pure trivial
  | cons r rs ih =>
    refine (Frame.append hr).bind fun _ _ => Frame.getList.bind fun ss _ => ?_
    split
    · exact Frame.throw
    · exact (Frame.append hs).bind fun _ _ => ih _

theorem Frame.wsumAdd {n r s : ℕ} {o : HVal} : Frame n (fun _ => True) (Heap.wsumAdd r s o) := by
  unfold Heap.wsumAdd
  refine Frame.alloc.bind fun dr hdr => Frame.alloc.bind fun ds hds => Frame.getList.bind fun rs _ =>
    (Frame.copyLoop hdr hds rs 0).bind fun _ _ => ?_
  refine Frame.bind (P := fun _ => True) ?_ fun _ _ => Frame.newWsum
  split
  · exact Frame.alloc.bind fun k _ => (Frame.append hdr).bind fun _ _ => Frame.append hds
  · refine Frame.getCell.bind fun c _ => ?_
    split
    · exact (Frame.append hdr).bind fun _ _ => Frame.append hds
    · exact (Frame.append hdr).bind fun _ _ => Frame.append hds
    · exact Frame.getList.bind fun rs2 _ => Frame.copyLoop hdr hds rs2 0
    · exact Frame.throw

theorem Frame.objAdd {n a : ℕ} {o : HVal} : Frame n (fun _ => True) (Heap.objAdd a o) := by
  unfold Heap.objAdd
  refine Frame.getCell.bind fun c _ => ?_
  split
  · exact Frame.csAdd
  · exact Frame.csAdd
  · exact Frame.wsumAdd
  · exact Frame.throw

theorem Frame.add {n : ℕ} (a b : HVal) : Frame n (fun _ => True) (Heap.add a b) := by
  cases a <;> cases b <;> unfold Heap.add
  · exact Frame.pure trivial
  all_goals exact Frame.objAdd

theorem Frame.mulLoop {n dr ds s : ℕ} {times : HVal → M HVal} (hr : n ≤ dr) (hs : n ≤ ds)
    (ht : ∀ x, Frame n (fun _ => True) (times x)) (rs : List HVal) (i : ℕ) :
    Frame n (fun _ => True) (Heap.mulLoop times dr ds s rs i) := by
  induction rs generalizing i with
  | nil => exact Frame.pure trivial
  | cons r rs ih =>
    refine (Frame.append hr).bind fun _ _ => Frame.getList.bind fun ss _ => ?_
    split
    · exact Frame.throw
    · exact (ht _).bind fun _ _ => (Frame.append hs).bind fun _ _ => ih _

theorem Frame.objMul {n a : ℕ} {o : HVal} {times : HVal → M HVal}
    (ht : ∀ x, Frame n (fun _ => True) (times x)) :
    Frame n (fun _ => True) (Heap.objMul times a o) := by
  unfold Heap.objMul
  refine Frame.getCell.bind fun c _ => ?_
  split
  · exact Frame.alloc.bind fun r _ => Frame.alloc.bind fun s _ => Frame.newWsum
  · exact Frame.alloc.bind fun r _ => Frame.alloc.bind fun s _ => Frame.newWsum
  · exact Frame.alloc.bind fun dr hdr => Frame.alloc.bind fun ds hds => Frame.getList.bind fun rs _ =>
      (Frame.mulLoop hdr hds ht rs 0).bind fun _ _ => Frame.newWsum
  · exact Frame.throw

theorem Frame.mul {n : ℕ} (k : ℕ) (a b : HVal) : Frame n (fun _ => True) (Heap.mul k a b) := by
  induction k generalizing a b with
  | zero => exact Frame.throw
  | succ k ih =>
    cases a <;> cases b <;> unfold Heap.mul
    · exact Frame.pure trivial
    all_goals exact Frame.objMul fun x => ih _ x

/-! ## Reading objects -/

theorem Ext.refl (h : Store) : Ext h h := fun _ _ e => e

theorem Ext.trans {h1 h2 h3 : Store} (a : Ext h1 h2) (b : Ext h2 h3) : Ext h1 h3 :=
  fun x c e => b x c (a x c e)

theorem Frame.ext {α : Type} {Q : α → Prop} {m : M α} {h : Store} (hm : Frame h.length Q m) :
    Ext h (m h).2 := by
  intro a c e
  obtain ⟨ha, -⟩ := List.getElem?_eq_some_iff.1 e
  rw [(hm h le_rfl).2.1 a ha, e]

theorem mapM_some_iff {α β : Type} {f : α → Option β} {xs : List α} {ys : List β} :
    xs.mapM f = some ys ↔ List.Forall₂ (fun x y => f x = some y) xs ys := by
  induction xs generalizing ys with
  | nil => cases ys <;> simp [pure]
  | cons x xs ih =>
    cases ys with
    | nil => simp [Option.bind_eq_some_iff]
    | cons y ys =>
      simp only [List.mapM_cons, Option.bind_eq_bind, Option.bind_eq_some_iff,
        List.forall₂_cons, Option.pure_def, Option.some.injEq, List.cons.injEq]
      constructor
      · rintro ⟨y', hy, ys', hys, rfl, rfl⟩
        exact ⟨hy, ih.1 hys⟩
      · rintro ⟨hy, hys⟩
        exact ⟨y, hy, ys, ih.2 hys, rfl, rfl⟩

theorem reify_wsum_iff {n : ℕ} {h : Store} {a r s : ℕ} {rs ss : List HVal} {o : Obj}
    (ha : h[a]? = some (.wsum r s)) (hr : h[r]? = some (.list rs)) (hs : h[s]? = some (.list ss)) :
    reify (n + 1) h (.ref a) = some o ↔ ∃ rs' ss', o = .wsum rs' ss' ∧
      List.Forall₂ (fun x y => reify n h x = some y) rs rs' ∧
      List.Forall₂ (fun x y => reify n h x = some y) ss ss' := by
  simp only [reify, ha, hr, hs, Option.bind_eq_some_iff, Option.map_eq_some_iff, mapM_some_iff]
  constructor
  · rintro ⟨rs', h1, ss', h2, rfl⟩
    exact ⟨rs', ss', rfl, h1, h2⟩
  · rintro ⟨rs', ss', rfl, h1, h2⟩
    exact ⟨rs', h1, ss', h2, rfl⟩

theorem reify_mono {n m : ℕ} {h h' : Store} (hx : Ext h h') (hnm : n ≤ m) {v : HVal} {o : Obj}
    (hv : reify n h v = some o) : reify m h' v = some o := by
  induction n generalizing m v o with
  | zero => simp [reify] at hv
  | succ n ih =>
    obtain ⟨m, rfl⟩ : ∃ k, m = k + 1 := ⟨m - 1, by omega⟩
    cases v with
    | num x => simpa [reify] using hv
    | ref a =>
      rcases ha : h[a]? with _ | c
      · simp [reify, ha] at hv
      · have ha' := hx a c ha
        cases c with
        | leaf l => simpa [reify, ha, ha'] using hv
        | const c => simpa [reify, ha, ha'] using hv
        | list xs => simp [reify, ha] at hv
        | wsum r s =>
          rcases hr : h[r]? with _ | cr
          · simp [reify, ha, hr] at hv
          rcases hs : h[s]? with _ | cs
          · cases cr <;> simp [reify, ha, hr, hs] at hv
          cases cr <;> cases cs <;> try (simp [reify, ha, hr, hs] at hv; done)
          rename_i rs ss
          rw [reify_wsum_iff ha hr hs] at hv
          rw [reify_wsum_iff ha' (hx _ _ hr) (hx _ _ hs)]
          obtain ⟨rs', ss', rfl, h1, h2⟩ := hv
          exact ⟨rs', ss', rfl, h1.imp fun _ _ e => ih (by omega) e, h2.imp fun _ _ e => ih (by omega) e⟩

/-! ## What the operators build -/

theorem Ext.len {h h' : Store} (e : Ext h h') : h.length ≤ h'.length := by
  by_contra hc
  push Not at hc
  have h1 : h[h'.length]? = some h[h'.length] := List.getElem?_eq_getElem hc
  have h2 := e _ _ h1
  simp at h2

theorem getElem?_lt {h : Store} {a : ℕ} {c : Cell} (e : h[a]? = some c) : a < h.length :=
  (List.getElem?_eq_some_iff.1 e).1

theorem alloc_spec (c : Cell) (h : Store) :
    alloc c h = (.ok h.length, h ++ [c]) ∧ Ext h (h ++ [c]) ∧ (h ++ [c])[h.length]? = some c := by
  refine ⟨rfl, fun a d e => ?_, by simp⟩
  rw [List.getElem?_append_left (getElem?_lt e), e]

theorem append_spec {h : Store} {a : ℕ} {xs : List HVal} (v : HVal) (e : h[a]? = some (.list xs)) :
    append a v h = (.ok (), h.set a (.list (xs ++ [v]))) ∧
    (h.set a (.list (xs ++ [v])))[a]? = some (.list (xs ++ [v])) ∧
    ∀ b, b ≠ a → (h.set a (.list (xs ++ [v])))[b]? = h[b]? := by
  refine ⟨by simp [append, e], by simp [getElem?_lt e], fun b hb => ?_⟩
  rw [List.getElem?_set_ne (Ne.symm hb)]

theorem getList_spec {h : Store} {a : ℕ} {xs : List HVal} (e : h[a]? = some (.list xs)) :
    getList a h = (.ok xs, h) := by simp [getList, e]

theorem getCell_spec {h : Store} {a : ℕ} {c : Cell} (e : h[a]? = some c) :
    getCell a h = (.ok c, h) := by simp [getCell, e]

/-- `v` is a weighted sum in `h` whose own cells have addresses from `n` on, with the given
list contents. -/
def NewSum (n : ℕ) (h : Store) (v : HVal) (rs ss : List HVal) : Prop :=
  ∃ a r s, v = .ref a ∧ n ≤ a ∧ n ≤ r ∧ n ≤ s ∧ h[a]? = some (.wsum r s) ∧
    h[r]? = some (.list rs) ∧ h[s]? = some (.list ss)

theorem newWsum_spec {h : Store} {r s n : ℕ} {rs ss : List HVal} (hr : h[r]? = some (.list rs))
    (hs : h[s]? = some (.list ss)) (hnr : n ≤ r) (hns : n ≤ s) (hn : n ≤ h.length) :
    ∃ v h', newWsum r s h = (.ok v, h') ∧ Ext h h' ∧ NewSum n h' v rs ss := by
  unfold newWsum
  rw [bind_ok (getList_spec hr)]
  rcases rs with _ | ⟨r0, rs⟩
  · obtain ⟨e1, x1, g1⟩ := alloc_spec (.list []) h
    obtain ⟨e2, x2, g2⟩ := alloc_spec (.wsum h.length s) (h ++ [.list []])
    refine ⟨_, _, by simp only [bind_ok e1, bind_ok e2]; rfl, x1.trans x2, _, _, _, rfl, ?_, hn, hns,
      g2, x2 _ _ g1, (x1.trans x2) _ _ hs⟩
    simp; omega
  · obtain ⟨e2, x2, g2⟩ := alloc_spec (.wsum r s) h
    exact ⟨_, _, by simp only [bind_ok (pure_def r h), bind_ok e2]; rfl, x2, _, _, _, rfl, hn, hnr,
      hns, g2, x2 _ _ hr, x2 _ _ hs⟩

theorem copyLoop_spec {dr ds s : ℕ} {ss : List HVal} (h1 : dr ≠ ds) (h2 : s ≠ dr) (h3 : s ≠ ds)
    (rs : List HVal) (i : ℕ) {h : Store} {A B : List HVal} (hdr : h[dr]? = some (.list A))
    (hds : h[ds]? = some (.list B)) (hs : h[s]? = some (.list ss)) :
    (i + rs.length ≤ ss.length → ∃ h', copyLoop dr ds s rs i h = (.ok (), h') ∧
      h'[dr]? = some (.list (A ++ rs)) ∧ h'[ds]? = some (.list (B ++ (ss.drop i).take rs.length)) ∧
      ∀ a, a ≠ dr → a ≠ ds → h'[a]? = h[a]?) ∧
    (ss.length < i + rs.length → i ≤ ss.length →
      ∃ h', copyLoop dr ds s rs i h = (.error .indexError, h')) := by
  induction rs generalizing i h A B with
  | nil => 
    refine ⟨fun _ => ⟨h, rfl, by simpa using hdr, by simpa using hds, fun _ _ _ => rfl⟩, fun a b => ?_⟩
    simp at a
    omega
  | cons r rs ih =>
    obtain ⟨e1, g1, f1⟩ := append_spec r hdr
    have hs' : (h.set dr (.list (A ++ [r])))[s]? = some (.list ss) := by rw [f1 _ h2, hs]
    have hds' : (h.set dr (.list (A ++ [r])))[ds]? = some (.list B) := by rw [f1 _ h1.symm, hds]
    by_cases hi : i < ss.length
    · have hget : ss[i]? = some ss[i] := List.getElem?_eq_getElem hi
      obtain ⟨e2, g2, f2⟩ := append_spec ss[i] hds'
      have key : copyLoop dr ds s (r :: rs) i h = copyLoop dr ds s rs (i + 1)
          ((h.set dr (.list (A ++ [r]))).set ds (.list (B ++ [ss[i]]))) := by
        rw [copyLoop, bind_ok e1, bind_ok (getList_spec hs')]
        simp only [hget]
        rw [bind_ok e2]
      obtain ⟨p, q⟩ := ih (i + 1) (A := A ++ [r]) (B := B ++ [ss[i]]) (by rw [f2 _ h1, g1]) g2
        (by rw [f2 _ h3, hs'])
      rw [key]
      constructor
      · intro hl
        obtain ⟨h', a1, a2, a3, a4⟩ := p (by simp at hl; omega)
        refine ⟨h', a1, by simpa using a2, ?_, fun a b c => ?_⟩
        · rw [a3]
          simp only [List.append_assoc, List.singleton_append, List.length_cons]
          rw [List.drop_eq_getElem_cons hi, List.take_succ_cons]
        · rw [a4 a b c, f2 _ c, f1 _ b]
      · intro hl _
        exact q (by simp at hl; omega) (by omega)
    · constructor
      · intro hl
        simp at hl; omega
      · intro _ hle
        refine ⟨h.set dr (.list (A ++ [r])), ?_⟩
        rw [copyLoop, bind_ok e1, bind_ok (getList_spec hs')]
        have : ss[i]? = none := by simp; omega
        simp only [this]
        rfl

/-- The entries that an operand contributes to a sum: `h` is the store before, `h'` after. -/
inductive Terms (h h' : Store) : HVal → List HVal → List HVal → Prop
  | num {c : ℝ} {k : ℕ} (hk : h'[k]? = some (.const c)) (hf : h.length ≤ k) :
      Terms h h' (.num c) [.ref k] [.num 1]
  | leaf {b : ℕ} {l : Leaf} (hb : h[b]? = some (.leaf l)) : Terms h h' (.ref b) [.ref b] [.num 1]
  | const {b : ℕ} {c : ℝ} (hb : h[b]? = some (.const c)) : Terms h h' (.ref b) [.ref b] [.num 1]
  | wsum {b r s : ℕ} {rs ss : List HVal} (hb : h[b]? = some (.wsum r s))
      (hr : h[r]? = some (.list rs)) (hs : h[s]? = some (.list ss)) (hl : rs.length ≤ ss.length) :
      Terms h h' (.ref b) rs (ss.take rs.length)

theorem Terms.mono {h h' h'' : Store} {v : HVal} {a b : List HVal} (e : Ext h' h'')
    (t : Terms h h' v a b) : Terms h h'' v a b := by
  cases t with
  | num hk hf => exact .num (e _ _ hk) hf
  | leaf hb => exact .leaf hb
  | const hb => exact .const hb
  | wsum hb hr hs hl => exact .wsum hb hr hs hl

/-- The operand `other` is readable in `h`: a number, a base cross section, or a weighted sum with
list attributes. -/
def Readable (h : Store) : HVal → Prop
  | .num _ => True
  | .ref b => (∃ l, h[b]? = some (.leaf l)) ∨ (∃ c, h[b]? = some (.const c)) ∨
      ∃ r s rs ss, h[b]? = some (.wsum r s) ∧ h[r]? = some (.list rs) ∧ h[s]? = some (.list ss)

/-- `other` is a weighted sum with fewer scale factors than reactions. -/
def Short (h : Store) (v : HVal) : Prop :=
  ∃ b r s rs ss, v = .ref b ∧ h[b]? = some (.wsum r s) ∧ h[r]? = some (.list rs) ∧
    h[s]? = some (.list ss) ∧ ss.length < rs.length

theorem wsumAdd_spec {h : Store} {r s : ℕ} {rs ss : List HVal} {o : HVal}
    (hr : h[r]? = some (.list rs)) (hs : h[s]? = some (.list ss)) (ho : Readable h o) :
    (ss.length < rs.length ∨ Short h o → ∃ h', wsumAdd r s o h = (.error .indexError, h')) ∧
    (rs.length ≤ ss.length → ¬ Short h o → ∃ v h' ts us, wsumAdd r s o h = (.ok v, h') ∧
      Ext h h' ∧ Terms h h' o ts us ∧ NewSum h.length h' v (rs ++ ts) (ss.take rs.length ++ us)) := by
  have hrl := getElem?_lt hr
  have hsl := getElem?_lt hs
  obtain ⟨e1, x1, g1⟩ := alloc_spec (.list []) h
  obtain ⟨e2, x2, g2⟩ := alloc_spec (.list []) (h ++ [.list []])
  set h2 := h ++ [.list []] ++ [.list []] with hh2
  have x12 := x1.trans x2
  have hlen : (h ++ [Cell.list []]).length = h.length + 1 := by simp
  rw [hlen] at e2 g2
  obtain ⟨p, q⟩ := copyLoop_spec (dr := h.length) (ds := h.length + 1) (s := s) (by omega) (by omega)
    (by omega) rs 0 (x2 _ _ g1) g2 (x12 _ _ hs)
  unfold wsumAdd
  rw [bind_ok e1, bind_ok e2, bind_ok (getList_spec (x12 _ _ hr))]
  by_cases hl : rs.length ≤ ss.length
  · obtain ⟨h3, a1, a2, a3, a4⟩ := p (by omega)
    rw [bind_ok a1]
    have x3 : Ext h h3 := fun a c e => by
      have := getElem?_lt e
      rw [a4 a (by omega) (by omega)]; exact x12 _ _ e
    simp only [List.nil_append, List.drop_zero] at a2 a3
    cases o with
    | num c =>
      obtain ⟨e4, x4, g4⟩ := alloc_spec (.const c) h3
      obtain ⟨e5, g5, f5⟩ := append_spec (.ref h3.length) (x4 _ _ a2)
      have l3 := getElem?_lt a3
      obtain ⟨e6, g6, f6⟩ := append_spec (.num 1)
        (h := (h3 ++ [Cell.const c]).set h.length (.list (rs ++ [.ref h3.length])))
        (a := h.length + 1) (by rw [f5 _ (by omega)]; exact x4 _ _ a3)
      obtain ⟨v, h', e7, x7, g7⟩ := newWsum_spec (n := h.length) (by rw [f6 _ (by omega), g5]) g6
        le_rfl (by omega) (by simp; omega)
      refine ⟨?_, fun _ _ => ⟨v, h', _, _, ?_, ?_, .num (k := h3.length) ?_ x3.len, g7⟩⟩
      · rintro (h8 | ⟨b, _, _, _, _, h8, -⟩)
        · omega
        · cases h8
      · rw [← e7, bind_def]; dsimp only; rw [bind_ok e4, bind_ok e5, e6]
      · intro a d e
        have := getElem?_lt e
        refine x7 _ _ ?_
        rw [f6 _ (by omega), f5 _ (by omega)]
        exact x4 _ _ (x3 _ _ e)
      · refine x7 _ _ ?_
        rw [f6 _ (by omega), f5 _ (by omega), g4]
    | ref b =>
      have base : ∀ c, h[b]? = some c → (∀ r s, c ≠ .wsum r s) → (∀ xs, c ≠ .list xs) →
          ∃ v h', (((append h.length (.ref b) >>= fun _ => append (h.length + 1) (.num 1)) : M Unit)
            >>= fun _ => newWsum h.length (h.length + 1)) h3 = (.ok v, h') ∧ Ext h h' ∧
            NewSum h.length h' v (rs ++ [.ref b]) (ss.take rs.length ++ [.num 1]) := by
        intro c _ _ _
        obtain ⟨e5, g5, f5⟩ := append_spec (.ref b) a2
        have l3 := getElem?_lt a3
        obtain ⟨e6, g6, f6⟩ := append_spec (.num 1)
          (h := h3.set h.length (.list (rs ++ [.ref b])))
          (a := h.length + 1) (by rw [f5 _ (by omega)]; exact a3)
        obtain ⟨v, h', e7, x7, g7⟩ := newWsum_spec (n := h.length) (by rw [f6 _ (by omega), g5]) g6
          le_rfl (by omega) (by simp; omega)
        refine ⟨v, h', ?_, ?_, g7⟩
        · rw [← e7, bind_def, bind_ok e5, e6]
        · intro a d e
          have := getElem?_lt e
          refine x7 _ _ ?_
          rw [f6 _ (by omega), f5 _ (by omega)]
          exact x3 _ _ e
      rcases ho with ⟨l, hb⟩ | ⟨c, hb⟩ | ⟨r2, s2, rs2, ss2, hb, hr2, hs2⟩
      · obtain ⟨v, h', k1, k2, k3⟩ := base _ hb (by simp) (by simp)
        refine ⟨?_, fun _ _ => ⟨v, h', _, _, ?_, k2, .leaf hb, k3⟩⟩
        · rintro (h8 | ⟨b', _, _, _, _, h8, h9, -⟩)
          · omega
          · cases h8; rw [hb] at h9; cases h9
        · rw [← k1, bind_def]; dsimp only; rw [bind_ok (getCell_spec (x3 _ _ hb))]
          rfl
      · obtain ⟨v, h', k1, k2, k3⟩ := base _ hb (by simp) (by simp)
        refine ⟨?_, fun _ _ => ⟨v, h', _, _, ?_, k2, .const hb, k3⟩⟩
        · rintro (h8 | ⟨b', _, _, _, _, h8, h9, -⟩)
          · omega
          · cases h8; rw [hb] at h9; cases h9
        · rw [← k1, bind_def]; dsimp only; rw [bind_ok (getCell_spec (x3 _ _ hb))]
          rfl
      · have hs2l := getElem?_lt hs2
        obtain ⟨p2, q2⟩ := copyLoop_spec (dr := h.length) (ds := h.length + 1) (s := s2) (by omega)
          (by omega) (by omega) rs2 0 a2 a3 (x3 _ _ hs2)
        constructor
        · rintro (h8 | ⟨b', r', s', rs', ss', h8, h9, h10, h11, h12⟩)
          · omega
          · cases h8
            rw [hb] at h9; cases h9
            rw [hr2] at h10; cases h10
            rw [hs2] at h11; cases h11
            obtain ⟨h', k⟩ := q2 (by omega) (by omega)
            refine ⟨h', ?_⟩
            rw [bind_def]; dsimp only; rw [bind_ok (getCell_spec (x3 _ _ hb))]
            simp only
            rw [bind_ok (getList_spec (x3 _ _ hr2)), k]
        · intro _ hns
          have hl2 : rs2.length ≤ ss2.length := by
            by_contra hc
            exact hns ⟨b, r2, s2, rs2, ss2, rfl, hb, hr2, hs2, by omega⟩
          obtain ⟨h4, b1, b2, b3, b4⟩ := p2 (by omega)
          have x4 : Ext h h4 := fun a c e => by
            have := getElem?_lt e
            rw [b4 a (by omega) (by omega)]; exact x3 _ _ e
          obtain ⟨v, h', e7, x7, g7⟩ := newWsum_spec (n := h.length) b2 b3
            le_rfl (by omega) x4.len
          refine ⟨v, h', _, _, ?_, x4.trans x7, .wsum hb hr2 hs2 hl2, by simpa using g7⟩
          rw [bind_def]; dsimp only; rw [bind_ok (getCell_spec (x3 _ _ hb))]
          simp only
          rw [bind_ok (getList_spec (x3 _ _ hr2)), b1]
          exact e7
  · obtain ⟨h3, a1⟩ := q (by omega) (by omega)
    rw [bind_err a1]
    exact ⟨fun _ => ⟨_, rfl⟩, fun h => by omega⟩

theorem csAdd_spec {h : Store} {a : ℕ} {o : HVal} (ho : Readable h o) :
    ∃ v h' o', csAdd a o h = (.ok v, h') ∧ Ext h h' ∧
      (match o with
        | .num c => ∃ k, o' = .ref k ∧ h.length ≤ k ∧ h'[k]? = some (.const c)
        | .ref b => o' = .ref b) ∧
      NewSum h.length h' v [.ref a, o'] [.num 1, .num 1] := by
  have rest : ∀ (h1 : Store) (o' : HVal), h.length ≤ h1.length → ∃ v h',
      ((alloc (.list [.ref a, o']) >>= fun r => alloc (.list [.num 1, .num 1]) >>= fun s =>
        newWsum r s) : M HVal) h1 = (.ok v, h') ∧ Ext h1 h' ∧
      NewSum h.length h' v [.ref a, o'] [.num 1, .num 1] := by
    intro h1 o' hlen
    obtain ⟨e1, x1, g1⟩ := alloc_spec (.list [.ref a, o']) h1
    obtain ⟨e2, x2, g2⟩ := alloc_spec (.list [.num 1, .num 1]) (h1 ++ [.list [.ref a, o']])
    obtain ⟨v, h', e3, x3, g3⟩ := newWsum_spec (n := h.length) (x2 _ _ g1) g2 hlen
      (by simp; omega) (by simp; omega)
    exact ⟨v, h', by rw [bind_ok e1, bind_ok e2, e3], x1.trans (x2.trans x3), g3⟩
  cases o with
  | num c =>
    obtain ⟨e1, x1, g1⟩ := alloc_spec (.const c) h
    obtain ⟨v, h', e2, x2, g2⟩ := rest (h ++ [.const c]) (.ref h.length) (by simp)
    exact ⟨v, h', _, by unfold csAdd; simp only [bind_def _ _ h, bind_ok e1]; exact e2, x1.trans x2,
      ⟨_, rfl, le_rfl, x2 _ _ g1⟩, g2⟩
  | ref b =>
    obtain ⟨v, h', e2, x2, g2⟩ := rest h (.ref b) le_rfl
    exact ⟨v, h', _, e2, x2, rfl, g2⟩

/-! ## The store model refines the value model -/

theorem reify_readable {n : ℕ} {h : Store} {v : HVal} {o : Obj} (hv : reify n h v = some o) :
    Readable h v := by
  cases n with
  | zero => simp [reify] at hv
  | succ n =>
    cases v with
    | num x => trivial
    | ref a =>
      rcases ha : h[a]? with _ | c
      · simp [reify, ha] at hv
      · cases c with
        | leaf l => exact .inl ⟨l, ha⟩
        | const c => exact .inr (.inl ⟨c, ha⟩)
        | list xs => simp [reify, ha] at hv
        | wsum r s =>
          rcases hr : h[r]? with _ | cr
          · simp [reify, ha, hr] at hv
          rcases hs : h[s]? with _ | cs
          · cases cr <;> simp [reify, ha, hr, hs] at hv
          cases cr <;> cases cs <;> try (simp [reify, ha, hr, hs] at hv; done)
          exact .inr (.inr ⟨_, _, _, _, ha, hr, hs⟩)

theorem pairScales_err {rs ss : List Obj} (h : ss.length < rs.length) :
    Obj.pairScales rs ss = .error .indexError := by
  induction rs generalizing ss with
  | nil => simp at h
  | cons r rs ih =>
    cases ss with
    | nil => simp [Obj.pairScales]
    | cons s ss => simp [Obj.pairScales, ih (by simpa using h), Except.map]

theorem reify_newSum {n m : ℕ} {h : Store} {v : HVal} {rs ss : List HVal} {rs' ss' : List Obj}
    (hv : NewSum m h v rs ss) (h1 : List.Forall₂ (fun x y => reify n h x = some y) rs rs')
    (h2 : List.Forall₂ (fun x y => reify n h x = some y) ss ss') :
    reify (n + 1) h v = some (.wsum rs' ss') := by
  obtain ⟨a, r, s, rfl, -, -, -, ha, hr, hs⟩ := hv
  exact (reify_wsum_iff ha hr hs).2 ⟨_, _, rfl, h1, h2⟩

/-- what an operand contributes to a sum, value level -/
theorem terms_reify {n : ℕ} {h h' : Store} {v : HVal} {ts us : List HVal} {o : Obj}
    (hx : Ext h h') (ht : Terms h h' v ts us) (hv : reify n h v = some o) :
    ∃ ts' us', List.Forall₂ (fun x y => reify n h' x = some y) ts ts' ∧
      List.Forall₂ (fun x y => reify n h' x = some y) us us' ∧
      ∀ rs ss, rs.length ≤ ss.length →
        Obj.wsumAdd rs ss o = .ok (.wsum (rs ++ ts') (ss.take rs.length ++ us')) := by
  obtain ⟨n, rfl⟩ : ∃ k, n = k + 1 := by
    cases n with
    | zero => simp [reify] at hv
    | succ n => exact ⟨n, rfl⟩
  cases ht with
  | @num c k hk hf =>
    obtain rfl : o = .num c := by simpa [reify, eq_comm] using hv
    refine ⟨[.const c], [.num 1], by simp [reify, hk], by simp [reify], fun rs ss hl => ?_⟩
    simp [Obj.wsumAdd, pairScales_ok hl, bind, Except.bind]
  | @leaf b l hb =>
    obtain rfl : o = .leaf l := by simpa [reify, hb, eq_comm] using hv
    refine ⟨[.leaf l], [.num 1], by simp [reify, hx _ _ hb], by simp [reify], fun rs ss hl => ?_⟩
    simp [Obj.wsumAdd, pairScales_ok hl, bind, Except.bind]
  | @const b c hb =>
    obtain rfl : o = .const c := by simpa [reify, hb, eq_comm] using hv
    refine ⟨[.const c], [.num 1], by simp [reify, hx _ _ hb], by simp [reify], fun rs ss hl => ?_⟩
    simp [Obj.wsumAdd, pairScales_ok hl, bind, Except.bind]
  | @wsum b r s rs2 ss2 hb hr hs hl2 =>
    obtain ⟨rs', ss', rfl, h1, h2⟩ := (reify_wsum_iff hb hr hs).1 hv
    have l1 := h1.length_eq
    have l2 := h2.length_eq
    refine ⟨rs', ss'.take ts.length, h1.imp fun _ _ e => reify_mono hx (by omega) e, ?_,
      fun rs ss hl => ?_⟩
    · exact List.forall₂_take _ (h2.imp fun _ _ e => reify_mono hx (by omega) e)
    · simp [Obj.wsumAdd, pairScales_ok hl, pairScales_ok (rs := rs') (ss := ss') (by omega),
        bind, Except.bind, l1]

/-- `__add__` of an object, value level -/
def objAddV (o other : Obj) : Except Err Obj :=
  match o with
  | .wsum rs ss => Obj.wsumAdd rs ss other
  | o => .ok (Obj.csAdd o other)

/-- The result of running code on the store is the given result of the value model. -/
def Refines (N : ℕ) (res : Except Err HVal × Store) (spec : Except Err Obj) : Prop :=
  match res.1 with
  | .ok v => ∃ o, spec = .ok o ∧ reify N res.2 v = some o
  | .error e => spec = .error e

theorem reify_pos {n : ℕ} {h : Store} {v : HVal} {o : Obj} (hv : reify n h v = some o) :
    ∃ k, n = k + 1 := by
  cases n with
  | zero => simp [reify] at hv
  | succ n => exact ⟨n, rfl⟩

theorem csAdd_refines {n : ℕ} {h : Store} {a : ℕ} {b : HVal} {oa ob : Obj}
    (ha : reify n h (.ref a) = some oa) (hb : reify n h b = some ob) :
    Refines (n + 1) (csAdd a b h) (.ok (Obj.csAdd oa ob)) := by
  obtain ⟨v, h', o', e, x, ho, hn⟩ := csAdd_spec (a := a) (reify_readable hb)
  obtain ⟨k, rfl⟩ := reify_pos hb
  rw [e]
  refine ⟨_, rfl, ?_⟩
  cases b with
  | num c =>
    obtain ⟨k, rfl, -, hk⟩ := ho
    obtain rfl : ob = .num c := by simpa [reify, eq_comm] using hb
    refine reify_newSum hn ?_ (by simp [reify])
    exact .cons (reify_mono x le_rfl ha) (by simp [reify, hk])
  | ref b =>
    obtain rfl : o' = .ref b := ho
    have : Obj.csAdd oa ob = .wsum [oa, ob] [.num 1, .num 1] := by
      cases ob with
      | num c =>
        rcases reify_readable hb with ⟨l, h1⟩ | ⟨c, h1⟩ | ⟨r, s, rs, ss, h1, h2, h3⟩
        · simp [reify, h1] at hb
        · simp [reify, h1] at hb
        · obtain ⟨_, _, h4, -⟩ := (reify_wsum_iff h1 h2 h3).1 hb
          cases h4
      | _ => rfl
    rw [this]
    refine reify_newSum hn ?_ (by simp [reify])
    exact .cons (reify_mono x le_rfl ha) (.cons (reify_mono x le_rfl hb) .nil)

theorem wsumAdd_error {rs ss : List Obj} (o : Obj) (h : ss.length < rs.length) :
    Obj.wsumAdd rs ss o = .error .indexError := by
  simp [Obj.wsumAdd, pairScales_err h, bind, Except.bind]

theorem objAdd_refines {n : ℕ} {h : Store} {a : ℕ} {b : HVal} {oa ob : Obj}
    (ha : reify n h (.ref a) = some oa) (hb : reify n h b = some ob) :
    Refines (n + 1) (objAdd a b h) (objAddV oa ob) := by
  obtain ⟨k, rfl⟩ := reify_pos hb
  rcases reify_readable ha with ⟨l, h1⟩ | ⟨c, h1⟩ | ⟨r, s, rs, ss, h1, h2, h3⟩
  · rw [objAdd, bind_ok (getCell_spec h1)]
    obtain rfl : oa = .leaf l := by simpa [reify, h1, eq_comm] using ha
    exact csAdd_refines ha hb
  · rw [objAdd, bind_ok (getCell_spec h1)]
    obtain rfl : oa = .const c := by simpa [reify, h1, eq_comm] using ha
    exact csAdd_refines ha hb
  · rw [objAdd, bind_ok (getCell_spec h1)]
    obtain ⟨rs', ss', rfl, f1, f2⟩ := (reify_wsum_iff h1 h2 h3).1 ha
    have l1 := f1.length_eq
    have l2 := f2.length_eq
    obtain ⟨p, q⟩ := wsumAdd_spec h2 h3 (reify_readable hb)
    simp only [objAddV]
    by_cases hl : ss.length < rs.length
    · obtain ⟨h', e⟩ := p (.inl hl)
      rw [e]
      exact wsumAdd_error _ (by omega)
    · by_cases hsh : Short h b
      · obtain ⟨h', e⟩ := p (.inr hsh)
        rw [e]
        obtain ⟨b', r2, s2, rs2, ss2, rfl, g1, g2, g3, g4⟩ := hsh
        obtain ⟨rs2', ss2', rfl, k1, k2⟩ := (reify_wsum_iff g1 g2 g3).1 hb
        have l3 := k1.length_eq
        have l4 := k2.length_eq
        simp [Refines, Obj.wsumAdd, pairScales_ok (rs := rs') (ss := ss') (by omega),
          pairScales_err (rs := rs2') (ss := ss2') (by omega), bind, Except.bind]
      · obtain ⟨v, h', ts, us, e, x, ht, hn⟩ := q (by omega) hsh
        obtain ⟨ts', us', t1, t2, t3⟩ := terms_reify x ht hb
        rw [e]
        refine ⟨_, t3 rs' ss' (by omega), reify_newSum hn ?_ ?_⟩
        · exact List.rel_append (f1.imp fun _ _ e => reify_mono x (by omega) e) t1
        · rw [← l1]
          exact List.rel_append (List.forall₂_take _ (f2.imp fun _ _ e => reify_mono x (by omega) e)) t2

theorem add_refines {n : ℕ} {h : Store} {a b : HVal} {oa ob : Obj}
    (ha : reify n h a = some oa) (hb : reify n h b = some ob) :
    Refines (n + 1) (add a b h) (Obj.add oa ob) := by
  obtain ⟨k, rfl⟩ := reify_pos hb
  have notNum : ∀ {a : ℕ} {o : Obj}, reify (k + 1) h (.ref a) = some o → ∀ x, o ≠ .num x := by
    intro a o ho x hx
    subst hx
    rcases reify_readable ho with ⟨l, h1⟩ | ⟨c, h1⟩ | ⟨r, s, rs, ss, h1, h2, h3⟩
    · simp [reify, h1] at ho
    · simp [reify, h1] at ho
    · obtain ⟨_, _, h4, -⟩ := (reify_wsum_iff h1 h2 h3).1 ho
      cases h4
  cases a with
  | num x =>
    obtain rfl : oa = .num x := by simpa [reify, eq_comm] using ha
    cases b with
    | num y =>
      obtain rfl : ob = .num y := by simpa [reify, eq_comm] using hb
      exact ⟨.num (x + y), by simp [Obj.add], rfl⟩
    | ref b =>
      have := objAdd_refines hb ha
      rw [add]
      convert this using 1
      cases ob with
      | num y => exact absurd rfl (notNum hb y)
      | _ => simp [Obj.add, objAddV]
  | ref a =>
    have := objAdd_refines ha hb
    rw [add]
    convert this using 1
    cases oa with
    | num y => exact absurd rfl (notNum ha y)
    | _ => simp [Obj.add, objAddV]

/-- Like `Refines`, for code started in a store that extends `h`: the result is read correctly in
every store that extends `h` and contains the objects created from address `n1` on. -/
def RefinesIn (h : Store) (n1 N : ℕ) (res : Except Err HVal × Store) (spec : Except Err Obj) :
    Prop :=
  match res.1 with
  | .ok v => ∃ o, spec = .ok o ∧ ∀ h3, Ext h h3 →
      (∀ (a : ℕ) (c : Cell), n1 ≤ a → res.2[a]? = some c → h3[a]? = some c) → reify N h3 v = some o
  | .error e => spec = .error e

theorem Frame.ext' {α : Type} {Q : α → Prop} {m : M α} {h h' : Store} {r : Except Err α}
    (hm : Frame h.length Q m) (e : m h = (r, h')) : Ext h h' := by
  have := hm.ext
  rwa [e] at this

theorem mulLoop_cons (ow r x : Obj) (rs ss : List Obj) :
    Obj.mulLoop ow (r :: rs) (x :: ss) = match Obj.mul ow x with
      | .error e => .error e
      | .ok p => match Obj.mulLoop ow rs ss with
        | .error e => .error e
        | .ok ps => .ok (p :: ps) := by
  rw [Obj.mulLoop]
  cases Obj.mul ow x <;> cases Obj.mulLoop ow rs ss <;> rfl

theorem mulLoop_refines {h : Store} {times : HVal → M HVal} {ow : Obj} {n N dr ds s : ℕ}
    {ss : List HVal} {ss' : List Obj}
    (ht : ∀ x ox, reify n h x = some ox → ∀ h1, Ext h h1 →
      RefinesIn h h1.length N (times x h1) (Obj.mul ow ox))
    (hf : ∀ m x, Frame m (fun _ => True) (times x))
    (hs : h[s]? = some (.list ss)) (hss : List.Forall₂ (fun x y => reify n h x = some y) ss ss')
    (hne : dr ≠ ds) (hdrl : h.length ≤ dr) (hdsl : h.length ≤ ds)
    (rs : List HVal) (rs' : List Obj) (hlen : rs.length = rs'.length) (i : ℕ) {h1 : Store}
    {A B : List HVal} (hx : Ext h h1) (hdr : h1[dr]? = some (.list A))
    (hds : h1[ds]? = some (.list B)) :
    match (mulLoop times dr ds s rs i h1).1 with
    | .ok _ => ∃ ps os, Obj.mulLoop ow rs' (ss'.drop i) = .ok os ∧
        (∀ (a : ℕ) (c : Cell), a ≠ dr → a ≠ ds → h1[a]? = some c →
          (mulLoop times dr ds s rs i h1).2[a]? = some c) ∧
        (mulLoop times dr ds s rs i h1).2[dr]? = some (.list (A ++ rs)) ∧
        (mulLoop times dr ds s rs i h1).2[ds]? = some (.list (B ++ ps)) ∧
        ∀ h3, Ext h h3 → (∀ (a : ℕ) (c : Cell), h1.length ≤ a →
          (mulLoop times dr ds s rs i h1).2[a]? = some c → h3[a]? = some c) →
          List.Forall₂ (fun x y => reify N h3 x = some y) ps os
    | .error e => Obj.mulLoop ow rs' (ss'.drop i) = .error e := by
  induction rs generalizing rs' i h1 A B with
  | nil =>
    obtain rfl : rs' = [] := by simpa using hlen.symm
    refine ⟨[], [], by simp [Obj.mulLoop], fun _ _ _ _ e => e, by simpa [mulLoop, pure_def] using hdr,
      by simpa [mulLoop, pure_def] using hds, fun _ _ _ => .nil⟩
  | cons r rs ih =>
    rcases rs' with _ | ⟨r', rs'⟩
    · simp at hlen
    have hsl := getElem?_lt hs
    have hl := hss.length_eq
    obtain ⟨e1, g1, f1⟩ := append_spec r hdr
    set h2 := h1.set dr (.list (A ++ [r])) with hh2
    have len2 : h2.length = h1.length := by simp [hh2]
    have hx2 : Ext h h2 := fun a c e => by
      have := getElem?_lt e
      rw [f1 _ (by omega)]; exact hx _ _ e
    have k0 : mulLoop times dr ds s (r :: rs) i h1 =
        (match ss[i]? with
          | none => throw .indexError
          | some x => times x >>= fun p => append ds p >>= fun _ =>
              mulLoop times dr ds s rs (i + 1)) h2 := by
      rw [mulLoop, bind_ok e1, bind_ok (getList_spec (hx2 _ _ hs))]
      rcases ss[i]? with _ | x <;> rfl
    by_cases hi : i < ss.length
    · have hget : ss[i]? = some ss[i] := List.getElem?_eq_getElem hi
      obtain ⟨y, hdrop, hre⟩ : ∃ y, ss'.drop i = y :: ss'.drop (i + 1) ∧ reify n h ss[i] = some y :=
        ⟨ss'[i]'(by omega), List.drop_eq_getElem_cons (by omega), List.Forall₂.get hss hi (by omega)⟩
      have hT := ht _ _ hre h2 hx2
      have hE := (hf h2.length ss[i])
      rcases e2 : times ss[i] h2 with ⟨p | p, h4⟩
      · have k1 : mulLoop times dr ds s (r :: rs) i h1 = (.error p, h4) := by
          rw [k0]; simp only [hget]; rw [bind_err e2]
        rw [e2] at hT
        have hT : Obj.mul ow y = .error p := hT
        rw [k1, hdrop]
        simp [mulLoop_cons, hT]
      · have hx4 : Ext h2 h4 := hE.ext' e2
        rw [e2] at hT
        obtain ⟨o, hTo, hT3⟩ := hT
        obtain ⟨e5, g5, f5⟩ := append_spec p (hx4 _ _ (by rw [f1 _ hne.symm]; exact hds))
        set h5 := h4.set ds (.list (B ++ [p])) with hh5
        have hdsl2 : ds < h1.length := getElem?_lt hds
        have hdrl2 : dr < h1.length := getElem?_lt hdr
        have len4 := hx4.len
        have len5 : h5.length = h4.length := by simp [hh5]
        have hx5 : Ext h h5 := fun a c e => by
          have := getElem?_lt e
          rw [f5 _ (by omega)]; exact hx4 _ _ (hx2 _ _ e)
        have k1 : mulLoop times dr ds s (r :: rs) i h1 = mulLoop times dr ds s rs (i + 1) h5 := by
          rw [k0]; simp only [hget]; rw [bind_ok e2, bind_ok e5]
        have hrec := ih rs' (by simpa using hlen) (i + 1) (A := A ++ [r]) (B := B ++ [p]) hx5
          (by rw [f5 _ hne]; exact hx4 _ _ g1) g5
        rw [k1, hdrop]
        rcases e6 : mulLoop times dr ds s rs (i + 1) h5 with ⟨er | u, h6⟩
        · rw [e6] at hrec
          have hrec : Obj.mulLoop ow rs' (ss'.drop (i + 1)) = .error er := hrec
          simp [mulLoop_cons, hTo, hrec]
        · rw [e6] at hrec
          obtain ⟨ps, os, r1, r2, r3, r4, r5⟩ := hrec
          refine ⟨p :: ps, o :: os, by simp [mulLoop_cons, hTo, r1],
            fun a c ha hb e => ?_, by simpa using r3, by simpa using r4, fun h3 y1 y2 => ?_⟩
          · refine r2 a c ha hb ?_
            rw [f5 _ hb]
            exact hx4 _ _ (by rw [f1 _ ha]; exact e)
          · refine .cons (hT3 h3 y1 fun a c ha e => y2 a c (by omega) (r2 a c (by omega) (by omega) ?_))
              (r5 h3 y1 fun a c ha e => y2 a c (by omega) e)
            rw [f5 _ (by omega)]; exact e
    · have hnone : ss[i]? = none := by simp; omega
      have k1 : mulLoop times dr ds s (r :: rs) i h1 = (.error .indexError, h2) := by
        rw [k0]; simp only [hnone]; rfl
      have : ss'.drop i = [] := by simp; omega
      rw [k1, this]
      simp [Obj.mulLoop]

/-- `__mul__` of an object, value level -/
def objMulV (o other : Obj) : Except Err Obj :=
  match o with
  | .wsum rs ss => (Obj.mulLoop other rs ss).map (.wsum rs)
  | o => .ok (.wsum [o] [other])

theorem csMul_refines {n m N : ℕ} {h h1 : Store} {a : ℕ} {b : HVal} {oa ob : Obj} (hx : Ext h h1)
    (ha : reify n h (.ref a) = some oa) (hb : reify m h b = some ob) (hN : n ≤ N) (hM : m ≤ N) :
    RefinesIn h h1.length (N + 1) (csMul a b h1) (.ok (.wsum [oa] [ob])) := by
  obtain ⟨e1, x1, g1⟩ := alloc_spec (.list [.ref a]) h1
  obtain ⟨e2, x2, g2⟩ := alloc_spec (.list [b]) (h1 ++ [.list [.ref a]])
  obtain ⟨v, h', e3, x3, g3⟩ := newWsum_spec (n := h1.length) (x2 _ _ g1) g2 le_rfl
      (by simp) (by simp)
  have e : csMul a b h1 = (.ok v, h') := by rw [csMul, bind_ok e1, bind_ok e2, e3]
  rw [e]
  refine ⟨_, rfl, fun h3 y1 y2 => ?_⟩
  obtain ⟨w, r, s, rfl, l1, l2, l3, c1, c2, c3⟩ := g3
  exact (reify_wsum_iff (y2 _ _ l1 c1) (y2 _ _ l2 c2) (y2 _ _ l3 c3)).2
    ⟨_, _, rfl, .cons (reify_mono y1 hN ha) .nil, .cons (reify_mono y1 hM hb) .nil⟩

theorem objMul_refines {n m N : ℕ} {h h1 : Store} {a : ℕ} {b : HVal} {oa ob : Obj}
    {times : HVal → M HVal} (hx : Ext h h1)
    (ha : reify (n + 1) h (.ref a) = some oa) (hb : reify m h b = some ob)
    (ht : ∀ x ox, reify n h x = some ox → ∀ h1, Ext h h1 →
      RefinesIn h h1.length N (times x h1) (Obj.mul ob ox))
    (hf : ∀ m x, Frame m (fun _ => True) (times x))
    (hN : n + 1 ≤ N) (hM : m ≤ N) :
    RefinesIn h h1.length (N + 1) (objMul times a b h1) (objMulV oa ob) := by
  rcases reify_readable ha with ⟨l, c1⟩ | ⟨c, c1⟩ | ⟨r, s, rs, ss, c1, c2, c3⟩
  · rw [objMul, bind_ok (getCell_spec (hx _ _ c1))]
    obtain rfl : oa = .leaf l := by simpa [reify, c1, eq_comm] using ha
    exact csMul_refines hx ha hb hN hM
  · rw [objMul, bind_ok (getCell_spec (hx _ _ c1))]
    obtain rfl : oa = .const c := by simpa [reify, c1, eq_comm] using ha
    exact csMul_refines hx ha hb hN hM
  · rw [objMul, bind_ok (getCell_spec (hx _ _ c1))]
    obtain ⟨rs', ss', rfl, f1, f2⟩ := (reify_wsum_iff c1 c2 c3).1 ha
    obtain ⟨e1, x1, g1⟩ := alloc_spec (.list []) h1
    obtain ⟨e2, x2, g2⟩ := alloc_spec (.list []) (h1 ++ [.list []])
    set h2 := h1 ++ [.list []] ++ [.list []] with hh2
    have hlen : (h1 ++ [Cell.list []]).length = h1.length + 1 := by simp
    rw [hlen] at e2 g2
    have hx2 := hx.trans (x1.trans x2)
    have len2 : h2.length = h1.length + 2 := by simp [hh2]
    have lenx := hx.len
    have key := mulLoop_refines ht hf c3 f2 (dr := h1.length) (ds := h1.length + 1) (by omega)
      lenx (by omega) rs rs' f1.length_eq 0 hx2 (x2 _ _ g1) g2
    have start : wsumMul times r s h1 =
        (mulLoop times h1.length (h1.length + 1) s rs 0 >>= fun _ =>
          newWsum h1.length (h1.length + 1)) h2 := by
      rw [wsumMul, bind_ok e1, bind_ok e2, bind_ok (getList_spec (hx2 _ _ c2))]
    simp only [start, objMulV]
    rcases e3 : mulLoop times h1.length (h1.length + 1) s rs 0 h2 with ⟨er | u, h4⟩
    · rw [e3] at key
      simp only [List.drop_zero] at key
      rw [bind_err e3, key]
      simp [RefinesIn, Except.map]
    · rw [e3] at key
      obtain ⟨ps, os, r1, r2, r3, r4, r5⟩ := key
      simp only [List.drop_zero, List.nil_append] at r1 r2 r3 r4 r5
      rw [bind_ok e3, r1]
      obtain ⟨v, h', e5, x5, g5⟩ := newWsum_spec (n := h1.length) r3 r4 le_rfl (by omega)
        (getElem?_lt r3).le
      rw [e5]
      refine ⟨_, rfl, fun h3 y1 y2 => ?_⟩
      obtain ⟨w, r', s', rfl, l1, l2, l3, d1, d2, d3⟩ := g5
      refine (reify_wsum_iff (y2 _ _ l1 d1) (y2 _ _ l2 d2) (y2 _ _ l3 d3)).2
        ⟨_, _, rfl, f1.imp fun _ _ e => reify_mono y1 (by omega) e,
          r5 h3 y1 fun a c ha e => y2 a c (by omega) (x5 _ _ e)⟩

theorem reify_ref_not_num {n : ℕ} {h : Store} {a : ℕ} {o : Obj}
    (ho : reify n h (.ref a) = some o) (x : ℝ) : o ≠ .num x := by
  obtain ⟨k, rfl⟩ := reify_pos ho
  rintro rfl
  rcases reify_readable ho with ⟨l, h1⟩ | ⟨c, h1⟩ | ⟨r, s, rs, ss, h1, h2, h3⟩
  · simp [reify, h1] at ho
  · simp [reify, h1] at ho
  · obtain ⟨_, _, h4, -⟩ := (reify_wsum_iff h1 h2 h3).1 ho
    cases h4

theorem mul_refinesIn (k : ℕ) {n m : ℕ} {h h1 : Store} {a b : HVal} {oa ob : Obj} (hx : Ext h h1)
    (ha : reify n h a = some oa) (hb : reify m h b = some ob) (hk : n + m ≤ k + 1) :
    RefinesIn h h1.length (n + m) (mul k a b h1) (Obj.mul oa ob) := by
  induction k generalizing n m a b oa ob h1 with
  | zero =>
    obtain ⟨n, rfl⟩ := reify_pos ha
    obtain ⟨m, rfl⟩ := reify_pos hb
    omega
  | succ k ih =>
    obtain ⟨n, rfl⟩ := reify_pos ha
    obtain ⟨m, rfl⟩ := reify_pos hb
    cases a with
    | num x =>
      obtain rfl : oa = .num x := by simpa [reify, eq_comm] using ha
      cases b with
      | num y =>
        obtain rfl : ob = .num y := by simpa [reify, eq_comm] using hb
        refine ⟨.num (x * y), by simp [Obj.mul], fun h3 _ _ => ?_⟩
        have : n + 1 + (m + 1) = (n + m + 1) + 1 := by omega
        rw [this]
        rfl
      | ref b =>
        have := objMul_refines (n := m) (m := n + 1) (N := n + m + 1) (times := mul k (.num x)) hx hb ha
          (fun y oy hy h1 hx1 => by
            obtain ⟨m, rfl⟩ := reify_pos hy
            have := ih hx1 ha hy (by omega)
            have e : n + (m + 1) + 1 = n + 1 + (m + 1) := by omega
            rw [e]; exact this)
          (fun p y => Frame.mul k _ y) (by omega) (by omega)
        have e : n + 1 + (m + 1) = n + m + 1 + 1 := by omega
        rw [mul, e]
        convert this using 1
        cases ob with
        | num y => exact absurd rfl (reify_ref_not_num hb y)
        | _ => simp [Obj.mul, objMulV]
    | ref a =>
      have := objMul_refines (n := n) (m := m + 1) (N := n + m + 1) (times := mul k b) hx ha hb
          (fun y oy hy h1 hx1 => by
            have := ih hx1 hb hy (by omega)
            have e : n + m + 1 = m + 1 + n := by omega
            rw [e]; exact this)
          (fun p y => Frame.mul k _ y) (by omega) (by omega)
      have e : n + 1 + (m + 1) = n + m + 1 + 1 := by omega
      rw [mul, e]
      convert this using 1
      cases oa with
      | num y => exact absurd rfl (reify_ref_not_num ha y)
      | _ => simp [Obj.mul, objMulV]

theorem mul_refines (k : ℕ) {n m : ℕ} {h : Store} {a b : HVal} {oa ob : Obj}
    (ha : reify n h a = some oa) (hb : reify m h b = some ob) (hk : n + m ≤ k + 1) :
    Refines (n + m) (mul k a b h) (Obj.mul oa ob) := by
  have key := mul_refinesIn k (Ext.refl h) ha hb hk
  have hE : Ext h (mul k a b h).2 := (Frame.mul (n := h.length) k a b).ext
  rcases e : mul k a b h with ⟨er | v, h'⟩
  · rw [e] at key; exact key
  · rw [e] at key hE
    obtain ⟨o, h1, h2⟩ := key
    exact ⟨o, h1, h2 _ hE fun _ _ _ e => e⟩

/-! ## Dependence on reachable objects only -/

theorem mapM_congr_opt {α β : Type} {f g : α → Option β} {xs : List α}
    (h : ∀ x ∈ xs, f x = g x) : xs.mapM f = xs.mapM g := by
  induction xs with
  | nil => rfl
  | cons x xs ih =>
    simp only [List.mapM_cons]
    rw [h x (by simp), ih fun y hy => h y (by simp [hy])]

theorem reify_congr {n : ℕ} {h h' : Store} {v : HVal}
    (hv : ∀ b, Reaches h v b → h'[b]? = h[b]?) : reify n h' v = reify n h v := by
  induction n generalizing v with
  | zero => rfl
  | succ n ih =>
    cases v with
    | num x => rfl
    | ref a =>
      have ha := hv a (.self a)
      rcases hc : h[a]? with _ | c
      · simp [reify, ha, hc]
      cases c with
      | leaf l => simp [reify, ha, hc]
      | const l => simp [reify, ha, hc]
      | list l => simp [reify, ha, hc]
      | wsum r s =>
        have hr := hv r (.reactions hc)
        have hs := hv s (.scales hc)
        simp only [reify, ha, hc, hr, hs]
        rcases hcr : h[r]? with _ | cr
        · rfl
        rcases hcs : h[s]? with _ | cs
        · cases cr <;> rfl
        cases cr <;> cases cs <;> try rfl
        rename_i rs ss
        simp only
        rw [mapM_congr_opt (xs := rs) (g := reify n h) fun x hx => ih fun b hb =>
            hv b (.reaction hc hcr hx hb),
          mapM_congr_opt (xs := ss) (g := reify n h) fun x hx => ih fun b hb =>
            hv b (.scale hc hcs hx hb)]

theorem Reaches.of_ext {h h' : Store} (hx : Ext h h') {v : HVal} {b : ℕ}
    (hw : ∃ n o, reify n h v = some o) (hr : Reaches h' v b) : Reaches h v b := by
  induction hr with
  | self a => exact .self a
  | reactions ha =>
    obtain ⟨n, o, hn⟩ := hw
    rcases reify_readable hn with ⟨l, c1⟩ | ⟨c, c1⟩ | ⟨r, s, rs, ss, c1, c2, c3⟩
    all_goals have := hx _ _ c1; rw [ha] at this; cases this
    exact .reactions c1
  | scales ha =>
    obtain ⟨n, o, hn⟩ := hw
    rcases reify_readable hn with ⟨l, c1⟩ | ⟨c, c1⟩ | ⟨r, s, rs, ss, c1, c2, c3⟩
    all_goals have := hx _ _ c1; rw [ha] at this; cases this
    exact .scales c1
  | @reaction a r s b xs x ha hr hxm _ ih =>
    obtain ⟨n, o, hn⟩ := hw
    rcases reify_readable hn with ⟨l, c1⟩ | ⟨c, c1⟩ | ⟨r, s, rs, ss, c1, c2, c3⟩
    all_goals have := hx _ _ c1; rw [ha] at this; cases this
    have := hx _ _ c2; rw [hr] at this; cases this
    obtain ⟨k, rfl⟩ := reify_pos hn
    obtain ⟨rs', ss', -, f1, -⟩ := (reify_wsum_iff c1 c2 c3).1 hn
    obtain ⟨i, hi, rfl⟩ := List.getElem_of_mem hxm
    exact .reaction c1 c2 hxm (ih ⟨k, _, List.Forall₂.get f1 hi (by rw [← f1.length_eq]; exact hi)⟩)
  | @scale a r s b xs x ha hr hxm _ ih =>
    obtain ⟨n, o, hn⟩ := hw
    rcases reify_readable hn with ⟨l, c1⟩ | ⟨c, c1⟩ | ⟨r, s, rs, ss, c1, c2, c3⟩
    all_goals have := hx _ _ c1; rw [ha] at this; cases this
    have := hx _ _ c3; rw [hr] at this; cases this
    obtain ⟨k, rfl⟩ := reify_pos hn
    obtain ⟨rs', ss', -, -, f2⟩ := (reify_wsum_iff c1 c2 c3).1 hn
    obtain ⟨i, hi, rfl⟩ := List.getElem_of_mem hxm
    exact .scale c1 c3 hxm (ih ⟨k, _, List.Forall₂.get f2 hi (by rw [← f2.length_eq]; exact hi)⟩)

theorem edit_get {h : Store} {a b : ℕ} {xs : List HVal} (hb : b ≠ a) : (edit h a xs)[b]? = h[b]? := by
  unfold edit
  split
  · rw [List.getElem?_set_ne (Ne.symm hb)]
  · rfl

theorem edits_get {es : List (ℕ × List HVal)} {h : Store} {b : ℕ} (hb : ∀ e ∈ es, b ≠ e.1) :
    (edits h es)[b]? = h[b]? := by
  induction es generalizing h with
  | nil => rfl
  | cons e es ih =>
    have : edits h (e :: es) = edits (edit h e.1 e.2) es := rfl
    rw [this, ih fun e he => hb e (by simp [he]), edit_get (hb e (by simp))]

/-! ## Entries of a sum -/

theorem newSum_reaches {n : ℕ} {h : Store} {v : HVal} {rs ss : List HVal} {b : ℕ}
    (hv : NewSum n h v rs ss) (hr : Reaches h v b) : n ≤ b ∨ ∃ x ∈ rs ++ ss, Reaches h x b := by
  obtain ⟨a, r, s, rfl, l1, l2, l3, c1, c2, c3⟩ := hv
  cases hr with
  | self => exact .inl l1
  | reactions e => rw [c1] at e; cases e; exact .inl l2
  | scales e => rw [c1] at e; cases e; exact .inl l3
  | reaction e e2 hx hb =>
    rw [c1] at e; cases e; rw [c2] at e2; cases e2
    exact .inr ⟨_, by simp [hx], hb⟩
  | scale e e2 hx hb =>
    rw [c1] at e; cases e; rw [c3] at e2; cases e2
    exact .inr ⟨_, by simp [hx], hb⟩

/-- the entries of a sum that does not nest a weighted sum -/
theorem add_entries {n : ℕ} {h h' : Store} {a b v : HVal} {oa ob : Obj}
    (ha : reify n h a = some oa) (hb : reify n h b = some ob)
    (hnest : IsSum h b → IsSum h a ∨ ∃ x, a = .num x) (hadd : add a b h = (.ok v, h')) :
    (∃ x, v = .num x) ∨ ∃ rs ss, NewSum h.length h' v rs ss ∧ ∀ x ∈ rs ++ ss,
      (∃ y, x = .num y) ∨ (∃ k c, x = .ref k ∧ h.length ≤ k ∧ h'[k]? = some (.const c)) ∨
        x ∈ parts h a ++ parts h b := by
  -- the terms of one operand
  have hterms : ∀ {o : HVal} {ts us : List HVal}, Terms h h' o ts us → ∀ x ∈ ts ++ us,
      (∃ y, x = .num y) ∨ (∃ k c, x = .ref k ∧ h.length ≤ k ∧ h'[k]? = some (.const c)) ∨
        x ∈ parts h o := by
    intro o ts us ht x hx
    cases ht with
    | num hk hf =>
      simp only [List.cons_append, List.nil_append, List.mem_cons, List.not_mem_nil, or_false] at hx
      rcases hx with rfl | rfl
      · exact .inr (.inl ⟨_, _, rfl, hf, hk⟩)
      · exact .inl ⟨_, rfl⟩
    | leaf hb =>
      simp only [List.cons_append, List.nil_append, List.mem_cons, List.not_mem_nil, or_false] at hx
      rcases hx with rfl | rfl
      · exact .inr (.inr (by simp [parts, hb]))
      · exact .inl ⟨_, rfl⟩
    | const hb =>
      simp only [List.cons_append, List.nil_append, List.mem_cons, List.not_mem_nil, or_false] at hx
      rcases hx with rfl | rfl
      · exact .inr (.inr (by simp [parts, hb]))
      · exact .inl ⟨_, rfl⟩
    | wsum hb hr hs hl =>
      refine .inr (.inr ?_)
      simp only [parts, hb, hr, hs]
      rcases List.mem_append.1 hx with hx | hx
      · simp [hx]
      · simp [List.mem_of_mem_take hx]
  -- `__add__` of an object
  have hobj : ∀ {a : ℕ} {b : HVal} {oa ob : Obj}, reify n h (.ref a) = some oa →
      reify n h b = some ob → (IsSum h b → IsSum h (.ref a)) → objAdd a b h = (.ok v, h') →
      ∃ rs ss, NewSum h.length h' v rs ss ∧ ∀ x ∈ rs ++ ss,
      (∃ y, x = .num y) ∨ (∃ k c, x = .ref k ∧ h.length ≤ k ∧ h'[k]? = some (.const c)) ∨
        x ∈ parts h (.ref a) ++ parts h b := by
    intro a b oa ob ha hb hnest hadd
    have hcs : (∀ r s, h[a]? ≠ some (.wsum r s)) → csAdd a b h = (.ok v, h') →
        ∃ rs ss, NewSum h.length h' v rs ss ∧ ∀ x ∈ rs ++ ss,
          (∃ y, x = .num y) ∨ (∃ k c, x = .ref k ∧ h.length ≤ k ∧ h'[k]? = some (.const c)) ∨
            x ∈ parts h (.ref a) ++ parts h b := by
      intro hna hcs
      obtain ⟨v1, h1, o', e, x, ho, hn⟩ := csAdd_spec (a := a) (reify_readable hb)
      rw [hcs] at e
      cases e
      have hpa : parts h (.ref a) = [.ref a] := by
        rcases hc : h[a]? with _ | c
        · simp [parts, hc]
        · cases c with
          | wsum r s => exact absurd hc (hna r s)
          | _ => simp [parts, hc]
      refine ⟨_, _, hn, fun y hy => ?_⟩
      simp only [List.cons_append, List.nil_append, List.mem_cons, List.not_mem_nil, or_false] at hy
      rcases hy with rfl | rfl | rfl | rfl
      · exact .inr (.inr (by simp [hpa]))
      · cases b with
        | num c => 
          obtain ⟨k, rfl, k1, k2⟩ := ho
          exact .inr (.inl ⟨k, c, rfl, k1, k2⟩)
        | ref b =>
          obtain rfl : y = .ref b := ho
          have hpb : parts h (.ref b) = [.ref b] := by
            rcases hc : h[b]? with _ | c
            · simp [parts, hc]
            · cases c with
              | wsum r s =>
                obtain ⟨a', r', s', h3, h4⟩ := hnest ⟨b, r, s, rfl, hc⟩
                cases h3
                exact absurd h4 (hna r' s')
              | _ => simp [parts, hc]
          exact .inr (.inr (by simp [hpb]))
      · exact .inl ⟨_, rfl⟩
      · exact .inl ⟨_, rfl⟩
    rcases reify_readable ha with ⟨l, c1⟩ | ⟨c, c1⟩ | ⟨r, s, rs, ss, c1, c2, c3⟩
    · rw [objAdd, bind_ok (getCell_spec c1)] at hadd
      exact hcs (by simp [c1]) hadd
    · rw [objAdd, bind_ok (getCell_spec c1)] at hadd
      exact hcs (by simp [c1]) hadd
    · rw [objAdd, bind_ok (getCell_spec c1)] at hadd
      simp only at hadd
      obtain ⟨p, q⟩ := wsumAdd_spec c2 c3 (reify_readable hb)
      by_cases hbad : ss.length < rs.length ∨ Short h b
      · obtain ⟨h1, e⟩ := p hbad
        rw [hadd] at e
        cases e
      · push Not at hbad
        obtain ⟨v1, h1, ts, us, e, x, ht, hn⟩ := q hbad.1 hbad.2
        rw [hadd] at e
        cases e
        refine ⟨_, _, hn, fun y hy => ?_⟩
        have hy' : y ∈ rs ∨ y ∈ ss.take rs.length ∨ y ∈ ts ++ us := by
          simp only [List.mem_append] at hy ⊢
          rcases hy with (h1 | h1) | (h1 | h1)
          · exact .inl h1
          · exact .inr (.inr (.inl h1))
          · exact .inr (.inl h1)
          · exact .inr (.inr (.inr h1))
        rcases hy' with hy | hy | hy
        · exact .inr (.inr (by simp [parts, c1, c2, c3, hy]))
        · exact .inr (.inr (by simp [parts, c1, c2, c3, List.mem_of_mem_take hy]))
        · rcases hterms ht y hy with h1 | h1 | h1
          · exact .inl h1
          · exact .inr (.inl h1)
          · exact .inr (.inr (by simp [h1]))
  cases a with
  | num x =>
    cases b with
    | num y =>
      left
      have : (Except.ok (HVal.num (x + y)) : Except Err HVal) = .ok v := congrArg Prod.fst hadd
      cases this
      exact ⟨_, rfl⟩
    | ref b =>
      right
      obtain ⟨rs, ss, hn, hall⟩ := hobj hb ha (by rintro ⟨_, _, _, h1, _⟩; cases h1) hadd
      refine ⟨rs, ss, hn, fun y hy => ?_⟩
      rcases hall y hy with h1 | h1 | h1
      · exact .inl h1
      · exact .inr (.inl h1)
      · exact .inr (.inr (List.mem_append.2 (List.mem_append.1 h1).symm))
  | ref a =>
    right
    refine hobj ha hb (fun hs => ?_) hadd
    rcases hnest hs with h1 | ⟨x, h1⟩
    · exact h1
    · cases h1

theorem parts_reify {n : ℕ} {h : Store} {v x : HVal} {o : Obj} (hv : reify n h v = some o)
    (hx : x ∈ parts h v) : ∃ n o, reify n h x = some o := by
  cases v with
  | num y =>
    obtain rfl : x = .num y := by simpa [parts] using hx
    exact ⟨n, o, hv⟩
  | ref a =>
    rcases reify_readable hv with ⟨l, c1⟩ | ⟨c, c1⟩ | ⟨r, s, rs, ss, c1, c2, c3⟩
    · obtain rfl : x = .ref a := by simpa [parts, c1] using hx
      exact ⟨n, o, hv⟩
    · obtain rfl : x = .ref a := by simpa [parts, c1] using hx
      exact ⟨n, o, hv⟩
    · obtain ⟨k, rfl⟩ := reify_pos hv
      obtain ⟨rs', ss', -, f1, f2⟩ := (reify_wsum_iff c1 c2 c3).1 hv
      simp only [parts, c1, c2, c3, List.mem_append] at hx
      rcases hx with hx | hx
      · obtain ⟨i, hi, rfl⟩ := List.getElem_of_mem hx
        exact ⟨k, _, List.Forall₂.get f1 hi (by rw [← f1.length_eq]; exact hi)⟩
      · obtain ⟨i, hi, rfl⟩ := List.getElem_of_mem hx
        exact ⟨k, _, List.Forall₂.get f2 hi (by rw [← f2.length_eq]; exact hi)⟩

theorem sum_independent {h h' : Store} {v : HVal} {P : List HVal} {rs ss : List HVal}
    (hx : Ext h h') (hn : NewSum h.length h' v rs ss)
    (hall : ∀ x ∈ rs ++ ss, (∃ y, x = .num y) ∨
      (∃ k c, x = .ref k ∧ h.length ≤ k ∧ h'[k]? = some (.const c)) ∨ x ∈ P)
    (hP : ∀ x ∈ P, ∃ n o, reify n h x = some o)
    {es : List (ℕ × List HVal)}
    (hes : ∀ e ∈ es, e.1 < h.length ∧ ∀ x ∈ P, ¬ Reaches h x e.1) (m : ℕ) :
    reify m (edits h' es) v = reify m h' v := by
  refine reify_congr fun b hb => edits_get fun e he hbe => ?_
  subst hbe
  obtain ⟨e1, e2⟩ := hes e he
  rcases newSum_reaches hn hb with h1 | ⟨x, h1, h2⟩
  · omega
  · rcases hall x h1 with ⟨y, rfl⟩ | ⟨k, c, rfl, k1, k2⟩ | hp
    · cases h2
    · cases h2 with
      | self => omega
      | reactions e => rw [k2] at e; cases e
      | scales e => rw [k2] at e; cases e
      | reaction e => rw [k2] at e; cases e
      | scale e => rw [k2] at e; cases e
    · exact e2 x hp (Reaches.of_ext hx (hP x hp) h2)

/-! ## Products -/

/-- Multiplying numbers by a number neither touches the store nor gives anything but a number. -/
def NumTimes (times : HVal → M HVal) : Prop := ∀ y h, (∃ z, times (.num y) h = (.ok (.num z), h)) ∨
  ∃ e, times (.num y) h = (.error e, h)

theorem numTimes_mul (k : ℕ) (x : ℝ) : NumTimes (mul k (.num x)) := by
  intro y h
  cases k with
  | zero => exact .inr ⟨_, rfl⟩
  | succ k => exact .inl ⟨_, rfl⟩

theorem mulLoop_num {times : HVal → M HVal} (ht : NumTimes times) {dr ds s : ℕ} {ss : List HVal}
    (h1 : dr ≠ ds) (h2 : s ≠ dr) (h3 : s ≠ ds) (hss : ∀ x ∈ ss, ∃ y, x = .num y)
    (rs : List HVal) (i : ℕ) {h h' : Store} {A B : List HVal} (hdr : h[dr]? = some (.list A))
    (hds : h[ds]? = some (.list B)) (hs : h[s]? = some (.list ss))
    (e : mulLoop times dr ds s rs i h = (.ok (), h')) :
    ∃ ps, h'[dr]? = some (.list (A ++ rs)) ∧ h'[ds]? = some (.list (B ++ ps)) ∧
      (∀ x ∈ ps, ∃ y, x = .num y) ∧ h'.length = h.length := by
  induction rs generalizing i h A B with
  | nil =>
    have e' : h = h' := (Prod.mk.inj e).2
    subst e'
    exact ⟨[], by simpa using hdr, by simpa using hds, by simp, rfl⟩
  | cons r rs ih =>
    obtain ⟨e1, g1, f1⟩ := append_spec r hdr
    have hs' : (h.set dr (.list (A ++ [r])))[s]? = some (.list ss) := by rw [f1 _ h2, hs]
    have hds' : (h.set dr (.list (A ++ [r])))[ds]? = some (.list B) := by rw [f1 _ h1.symm, hds]
    rw [mulLoop, bind_ok e1, bind_ok (getList_spec hs')] at e
    rcases hi : ss[i]? with _ | x
    · simp only [hi] at e
      simp [throw] at e
    · simp only [hi] at e
      obtain ⟨y, rfl⟩ := hss x (List.mem_of_getElem? hi)
      rcases ht y (h.set dr (.list (A ++ [r]))) with ⟨z, hz⟩ | ⟨err, hz⟩
      · rw [bind_ok hz] at e
        obtain ⟨e2, g2, f2⟩ := append_spec (.num z) hds'
        rw [bind_ok e2] at e
        obtain ⟨ps, k1, k2, k3, k4⟩ := ih (i + 1) (A := A ++ [r]) (B := B ++ [.num z])
          (by rw [f2 _ h1, g1]) g2 (by rw [f2 _ h3, hs']) e
        refine ⟨.num z :: ps, by simpa using k1, by simpa using k2, ?_, by simpa using k4⟩
        intro x hx
        rcases List.mem_cons.1 hx with rfl | hx
        · exact ⟨z, rfl⟩
        · exact k3 x hx
      · rw [bind_err hz] at e
        simp at e

/-- The entries of a product of an object with numeric scale factors and a number. -/
theorem objMul_entries {times : HVal → M HVal} (ht : NumTimes times) {n : ℕ} {h h' : Store} {a : ℕ}
    {v : HVal} {oa : Obj} {x : ℝ} (ha : reify n h (.ref a) = some oa)
    (hss : ∀ rs ss, oa = .wsum rs ss → ∀ s ∈ ss, ∃ c, s = Obj.num c)
    (hm : objMul times a (.num x) h = (.ok v, h')) :
    ∃ rs ss, NewSum h.length h' v rs ss ∧ ∀ y ∈ rs ++ ss, (∃ z, y = .num z) ∨
      y ∈ parts h (.ref a) := by
  have hcs : parts h (.ref a) = [.ref a] → csMul a (.num x) h = (.ok v, h') →
      ∃ rs ss, NewSum h.length h' v rs ss ∧ ∀ y ∈ rs ++ ss, (∃ z, y = .num z) ∨
        y ∈ parts h (.ref a) := by
    intro hp e
    obtain ⟨e1, x1, g1⟩ := alloc_spec (.list [.ref a]) h
    obtain ⟨e2, x2, g2⟩ := alloc_spec (.list [.num x]) (h ++ [.list [.ref a]])
    obtain ⟨v', h'', e3, x3, g3⟩ := newWsum_spec (n := h.length) (x2 _ _ g1) g2 le_rfl
      (by simp) (by simp)
    rw [csMul, bind_ok e1, bind_ok e2, e3] at e
    cases e
    refine ⟨_, _, g3, fun y hy => ?_⟩
    simp only [List.cons_append, List.nil_append, List.mem_cons, List.not_mem_nil, or_false] at hy
    rcases hy with rfl | rfl
    · exact .inr (by simp [hp])
    · exact .inl ⟨x, rfl⟩
  rcases reify_readable ha with ⟨l, c1⟩ | ⟨c, c1⟩ | ⟨r, s, rs, ss, c1, c2, c3⟩
  · rw [objMul, bind_ok (getCell_spec c1)] at hm
    exact hcs (by simp [parts, c1]) hm
  · rw [objMul, bind_ok (getCell_spec c1)] at hm
    exact hcs (by simp [parts, c1]) hm
  · rw [objMul, bind_ok (getCell_spec c1)] at hm
    simp only at hm
    obtain ⟨k, rfl⟩ := reify_pos ha
    obtain ⟨rs', ss', ho, f1, f2⟩ := (reify_wsum_iff c1 c2 c3).1 ha
    have hnum : ∀ x ∈ ss, ∃ y, x = .num y := by
      intro x hx
      obtain ⟨i, hi, rfl⟩ := List.getElem_of_mem hx
      have hi' : i < ss'.length := by rw [← f2.length_eq]; exact hi
      have hre := List.Forall₂.get f2 hi hi'
      obtain ⟨c, hc⟩ := hss rs' ss' ho _ (List.getElem_mem hi')
      simp only [List.get_eq_getElem] at hre
      rw [hc] at hre
      cases hxx : ss[i] with
      | num y => exact ⟨y, rfl⟩
      | ref b =>
        rw [hxx] at hre
        exact absurd rfl (reify_ref_not_num hre c)
    obtain ⟨e1, x1, g1⟩ := alloc_spec (.list []) h
    obtain ⟨e2, x2, g2⟩ := alloc_spec (.list []) (h ++ [.list []])
    have x12 := x1.trans x2
    have hsl := getElem?_lt c3
    rw [wsumMul, bind_ok e1, bind_ok e2, bind_ok (getList_spec (x12 _ _ c2))] at hm
    rcases hl : mulLoop times h.length (h ++ [Cell.list []]).length s rs 0
      (h ++ [Cell.list []] ++ [Cell.list []]) with ⟨res, h1⟩
    rcases res with err | u
    · rw [bind_err hl] at hm
      simp at hm
    · rw [bind_ok hl] at hm
      obtain ⟨ps, k1, k2, k3, k4⟩ := mulLoop_num ht (by simp) (by omega) (by simp; omega) hnum rs 0
        (x2 _ _ g1) g2 (x12 _ _ c3) hl
      obtain ⟨v', h'', e3, x3, g3⟩ := newWsum_spec (n := h.length) k1 k2 le_rfl (by simp)
        (by rw [k4]; simp)
      rw [e3] at hm
      cases hm
      refine ⟨_, _, g3, fun y hy => ?_⟩
      simp only [List.nil_append] at hy
      rcases List.mem_append.1 hy with hy | hy
      · exact .inr (by simp [parts, c1, c2, c3, hy])
      · exact .inl (k3 y hy)

end Ries.Heap
