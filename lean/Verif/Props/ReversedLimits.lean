import Verif.Props.Grid
import Verif.Lemmas.Coverage
import Verif.Props.Resonance

/-! # Property C133: the order of the limits of a grid -/

namespace Ries

theorem linspace_swap (a b : ℝ) {n : ℤ} (hn : n ≠ 1) :
    linspace (.fin b) (.fin a) n = (linspace (.fin a) (.fin b) n).map List.reverse := by
  rcases lt_or_ge n 0 with h | h
  · simp [linspace_neg _ _ h, Except.map]
  · obtain ⟨m, rfl⟩ := Int.eq_ofNat_of_zero_le h
    match m with
    | 0 => simp [linspace_zero, Except.map]
    | 1 => simp at hn
    | m + 2 =>
      have e : ((m + 2 : ℕ) : ℤ) = (m : ℤ) + 2 := by push_cast; ring
      rw [e, linspace_nat, linspace_nat]
      simp only [Except.map, Except.ok.injEq]
      refine List.ext_getElem (by simp) fun i h1 h2 => ?_
      simp only [List.length_map, List.length_range] at h1
      rw [List.getElem_reverse]
      simp only [List.length_map, List.length_range, List.getElem_map, List.getElem_range, Fl.fin.injEq]
      rw [show m + 2 - 1 - i = m + 1 - i by omega, Nat.cast_sub (by omega)]
      have hm : (m : ℝ) + 1 ≠ 0 := by positivity
      push_cast
      field_simp
      ring

theorem linspace_nan {n : ℤ} {g : List Fl} (h : linspace .nan .nan n = .ok g) : g = List.replicate g.length .nan := by
  unfold linspace at h
  split_ifs at h
  simp only [Fl.add, Fl.smul] at h
  split at h <;> simp only [Except.ok.injEq] at h <;> subst h
  · rfl
  · rfl
  · rw [List.eq_replicate_iff]
    refine ⟨rfl, fun b hb => ?_⟩
    simp only [List.mem_append, List.mem_map, List.mem_singleton] at hb
    rcases hb with ⟨_, _, rfl⟩ | rfl <;> rfl

/-- both ends are numbers, or both are nan -/
def BothFin (x y : Fl) : Prop := (∃ a b, x = .fin a ∧ y = .fin b) ∨ (x = .nan ∧ y = .nan)

theorem linspace_swap' {x y : Fl} (h : BothFin x y) {n : ℤ} (hn : n ≠ 1) :
    linspace y x n = (linspace x y n).map List.reverse := by
  rcases h with ⟨a, b, rfl, rfl⟩ | ⟨rfl, rfl⟩
  · exact linspace_swap a b hn
  · cases hl : linspace .nan .nan n with
    | error e => rfl
    | ok g =>
      rw [Except.map, linspace_nan hl, List.reverse_replicate]

/-- What all distributions in use have in common: their functions do not depend on the order of the points of an array. -/
structure Dist.Orderless (d : Dist) : Prop where
  cdf : ∀ ps, (∃ e, ∀ a b, d.cdf ps [a, b] = .error e) ∨ ∃ F : ℝ → Fl, (∀ a b, BothFin (F a) (F b)) ∧ ∀ a b, d.cdf ps [a, b] = .ok [F a, F b]
  ppf : ∀ ps qs, d.ppf ps qs.reverse = (d.ppf ps qs).map (Option.map List.reverse)
  length : ∀ ps qs g, d.ppf ps qs = .ok (some g) → g.length = qs.length

theorem scipyDist_orderless (pdf cdf ppf : ℝ → ℝ → ℝ → ℝ) (lo hi : ℝ → ℝ → Fl) : (scipyDist pdf cdf ppf lo hi).Orderless where
  cdf := by
    intro ps
    simp only [scipyDist, bind, Except.bind]
    cases hl : locScale ps with
    | error e => exact Or.inl ⟨e, fun _ _ => rfl⟩
    | ok ls =>
      refine Or.inr ⟨fun x => if 0 < ls.2 then .fin (cdf ls.1 ls.2 x) else .nan, fun a b => ?_, fun a b => by simp⟩
      by_cases h : 0 < ls.2
      · simp only [h, if_true]; exact Or.inl ⟨_, _, rfl, rfl⟩
      · simp only [h, if_false]; exact Or.inr ⟨rfl, rfl⟩
  ppf := by
    intro ps qs
    simp only [scipyDist, bind, Except.bind]
    cases hl : locScale ps with
    | error e => rfl
    | ok ls => simp [Except.map]
  length := scipyDist_lengthPreserving _ _ _ _ _

theorem newtonLoop_reverse (F p : ℝ → ℝ) (fuel : ℕ) (st : List NEl) :
    newtonLoop F p fuel st.reverse = (newtonLoop F p fuel st).reverse := by
  induction fuel generalizing st with
  | zero => rfl
  | succ fuel ih =>
    unfold newtonLoop
    simp only [List.mem_reverse, List.map_reverse]
    split_ifs
    · rfl
    · rfl
    · rfl
    · exact ih _

theorem newtonLoop_len (F p : ℝ → ℝ) (fuel : ℕ) (st : List NEl) : (newtonLoop F p fuel st).length = st.length := by
  induction fuel generalizing st with
  | zero => rfl
  | succ fuel ih =>
    unfold newtonLoop
    simp only
    split_ifs
    · simp
    · simp
    · simp
    · rw [ih]; simp

theorem ppfArray_reverse (d : PV) (qs : List ℝ) :
    (d.ppfArray qs.reverse).values = (d.ppfArray qs).values.map List.reverse := by
  unfold PV.ppfArray newtonArray
  simp only [List.map_reverse, newtonLoop_reverse, List.any_reverse, List.all_reverse]
  generalize newtonLoop d.cdfR d.pdfR 50 (qs.map fun q => ⟨q, d.er, true, true⟩) = st
  by_cases hv : d.Valid
  · simp only [hv, if_true]
    split_ifs <;> simp only [List.mem_reverse] <;> (try split_ifs) <;> simp
  · simp [hv]

theorem ppfArray_len (d : PV) (qs : List ℝ) (g : List Fl) (h : (d.ppfArray qs).values = some g) : g.length = qs.length := by
  unfold PV.ppfArray newtonArray at h
  have hl := newtonLoop_len d.cdfR d.pdfR 50 (qs.map fun q => ⟨q, d.er, true, true⟩)
  rw [List.length_map] at hl
  generalize newtonLoop d.cdfR d.pdfR 50 (qs.map fun q => ⟨q, d.er, true, true⟩) = st at h hl
  simp only at h
  by_cases hv : d.Valid
  · simp only [hv, if_true] at h
    split_ifs at h <;> simp only at h <;> (try split_ifs at h) <;> simp at h <;> subst h <;> simp [hl]
  · simp only [hv, if_false, Option.some.injEq] at h
    rw [← h]; simp

theorem finList_some {qs : List Fl} {l : List ℝ} (h : PV.finList qs = some l) : qs = l.map .fin := by
  induction qs generalizing l with
  | nil => simp [PV.finList] at h; simp [← h]
  | cons q qs ih =>
    cases q with
    | fin q =>
      simp only [PV.finList, Option.map_eq_some_iff] at h
      obtain ⟨l', h1, rfl⟩ := h
      simp [ih h1]
    | _ => simp [PV.finList] at h

theorem finList_reverse (qs : List Fl) : PV.finList qs.reverse = (PV.finList qs).map List.reverse := by
  cases h : PV.finList qs with
  | some l => rw [finList_some h, ← List.map_reverse, finList_map]; rfl
  | none =>
    cases h' : PV.finList qs.reverse with
    | none => rfl
    | some l =>
      have := congrArg List.reverse (finList_some h')
      rw [List.reverse_reverse, ← List.map_reverse] at this
      rw [this, finList_map] at h
      simp at h

theorem pv_orderless (d : PV) : d.toDist.Orderless where
  cdf := by
    intro ps
    by_cases hp : ps = []
    · refine Or.inr ⟨d.cdf, fun a b => ?_, fun a b => by simp [PV.toDist, hp]⟩
      unfold PV.cdf
      by_cases hv : d.Valid
      · simp only [hv, if_true]; exact Or.inl ⟨_, _, rfl, rfl⟩
      · simp only [hv, if_false]; exact Or.inr ⟨rfl, rfl⟩
    · exact Or.inl ⟨.typeError, fun a b => by simp [PV.toDist, hp]⟩
  ppf := by
    intro ps qs
    by_cases hp : ps = []
    · simp only [PV.toDist, hp, if_true, finList_reverse]
      cases h : PV.finList qs with
      | none => rfl
      | some l => simp [Except.map, ppfArray_reverse]
    · simp [PV.toDist, hp, Except.map]
  length := by
    intro ps qs g h
    simp only [PV.toDist] at h
    split_ifs at h
    split at h
    · rename_i l hl
      simp only [Except.ok.injEq] at h
      rw [ppfArray_len _ _ _ h, finList_some hl, List.length_map]
    · simp at h

theorem semi_orderless (d : PV) : d.toSemiDist.Orderless := ⟨(pv_orderless d).cdf, (pv_orderless d).ppf, (pv_orderless d).length⟩

/-- the distribution of every resonance that can be constructed -/
theorem build_orderless {s : Shape} {k : PhysConst} {init inter : Level} {final : Option Level} {r : Reso}
    (h : s.build k init inter final = .ok r) : r.dist.Orderless := by
  obtain ⟨r0, d, ps, -, hd, rfl⟩ := build_inv h
  simp only
  cases s with
  | box R =>
    simp only [Shape.distOf, Except.ok.injEq, Prod.mk.injEq] at hd
    rw [← hd.1]; exact scipyDist_orderless _ _ _ _ _
  | breitWigner =>
    simp only [Shape.distOf, bind, Except.bind] at hd
    split at hd
    · simp at hd
    · simp only [Except.ok.injEq, Prod.mk.injEq] at hd
      rw [← hd.1]; exact scipyDist_orderless _ _ _ _ _
  | gauss amu T =>
    simp only [Shape.distOf, bind, Except.bind] at hd
    split at hd
    · simp at hd
    · simp only [Except.ok.injEq, Prod.mk.injEq] at hd
      rw [← hd.1]; exact scipyDist_orderless _ _ _ _ _
  | pseudoVoigt amu T =>
    simp only [Shape.distOf, bind, Except.bind] at hd
    split at hd
    · simp at hd
    · split at hd
      · simp at hd
      · simp only [Except.ok.injEq, Prod.mk.injEq] at hd
        rw [← hd.1]; exact pv_orderless _
  | voigt amu T =>
    simp only [Shape.distOf, bind, Except.bind] at hd
    split at hd
    · simp at hd
    · split at hd
      · simp at hd
      · simp only [Except.ok.injEq, Prod.mk.injEq] at hd
        rw [← hd.1]; exact semi_orderless _

theorem setEnds_reverse (a b : Fl) {g : List Fl} (hg : g.length ≠ 1) :
    Reso.setEnds b a g.reverse = (Reso.setEnds a b g).map List.reverse := by
  match g with
  | [] => rfl
  | [_] => simp at hg
  | x :: y :: g =>
    rcases List.eq_nil_or_concat (y :: g) with h | ⟨l, z, h⟩
    · simp at h
    · rw [h, List.concat_eq_append]
      have : (x :: (l ++ [z])).reverse = z :: (l.reverse ++ [x]) := by simp
      rw [this]
      have e : ∀ (u v p q : Fl) (m : List Fl), Reso.setEnds u v (p :: (m ++ [q])) = .ok (u :: (m ++ [v])) := by
        intro u v p q m
        cases m with
        | nil => rfl
        | cons w m =>
          simp only [Reso.setEnds, List.cons_append]
          rw [show w :: (m ++ [q]) = (w :: m) ++ [q] from rfl, List.dropLast_concat]; rfl
      rw [e, e]
      simp [Except.map]

/-- C133: for every resonance that can be constructed, of any shape, and every number of points other than 1, exchanging the limits gives the
same probability grid in reverse order (or the same exception). -/
theorem C133_probability_grid {s : Shape} {k : PhysConst} {init inter : Level} {final : Option Level} {r : Reso}
    (h : s.build k init inter final = .ok r) (a b : ℝ) {n : ℤ} (hn : n ≠ 1) :
    r.probGrid (.lims b a) n = (r.probGrid (.lims a b) n).map (Option.map List.reverse) := by
  have ho := build_orderless h
  unfold Reso.probGrid
  simp only [bind, Except.bind]
  rcases ho.cdf r.params with ⟨e, he⟩ | ⟨F, hF, he⟩
  · simp [he, Except.map]
  · simp only [he, linspace_swap' (hF a b) hn]
    cases hq : linspace (F a) (F b) n with
    | error e => rfl
    | ok qs =>
      simp only [Except.map, ho.ppf]
      cases hp : r.dist.ppf r.params qs with
      | error e => rfl
      | ok o =>
        cases o with
        | none => rfl
        | some g =>
          have hl := ho.length _ _ _ hp
          have hl' := linspace_length hq
          simp only [Option.map_some]
          rw [setEnds_reverse (.fin a) (.fin b) (by omega)]
          cases Reso.setEnds (.fin a) (.fin b) g <;> rfl

/-- C133: the same for the energy grids. -/
theorem C133_energy_grid (r : Reso) (a b : ℝ) {n : ℤ} (hn : n ≠ 1) :
    energyGrid (.lims b a) n = (energyGrid (.lims a b) n).map List.reverse ∧
    constGrid (.lims b a) n = (constGrid (.lims a b) n).map List.reverse ∧
    r.energyGrid (.lims b a) n = (r.energyGrid (.lims a b) n).map List.reverse :=
  ⟨linspace_swap a b hn, linspace_swap a b hn, linspace_swap a b hn⟩

/-! ## Sums -/

/-- A nonresonant process with the grid of its base class, or a resonance that has been constructed. -/
def StandardLeaf (l : Leaf) : Prop :=
  l.grid = constGrid ∨ ∃ s k init inter final r, Shape.build s k init inter final = .ok r ∧ l = r.toLeaf

mutual
/-- every constituent of an object at any depth is a constant or a standard leaf -/
def Obj.Standard : Obj → Prop
  | .num _ => True
  | .leaf l => StandardLeaf l
  | .const _ => True
  | .wsum rs _ => Obj.Standards rs
/-- for lists -/
def Obj.Standards : List Obj → Prop
  | [] => True
  | o :: os => o.Standard ∧ Obj.Standards os
end

/-- the same exception, or the same points in any order -/
def SameUpToOrder : Except Err (List Fl) → Except Err (List Fl) → Prop
  | .error e, .error e' => e = e'
  | .ok g, .ok g' => g.Perm g'
  | _, _ => False

theorem sameUpToOrder_map (x : Except Err (List Fl)) : SameUpToOrder (x.map List.reverse) x := by
  cases x with
  | error e => exact rfl
  | ok g => exact List.reverse_perm g

theorem npUnique_perm {g g' : List Fl} (h : g.Perm g') : npUnique g = npUnique g' := by
  unfold npUnique
  have h1 : (g.dedup.insertionSort (· ≤ ·)).Perm (g'.dedup.insertionSort (· ≤ ·)) :=
    (List.perm_insertionSort _ _).trans ((h.dedup).trans (List.perm_insertionSort _ _).symm)
  exact List.Perm.eq_of_pairwise' (List.pairwise_insertionSort _ _) (List.pairwise_insertionSort _ _) h1

theorem leaf_swap {l : Leaf} (h : StandardLeaf l) (a b : ℝ) {n : ℤ} (hn : n ≠ 1) :
    l.grid (.lims b a) n = (l.grid (.lims a b) n).map List.reverse := by
  rcases h with h | ⟨s, k, init, inter, final, r, hr, rfl⟩
  · rw [h]; exact linspace_swap a b hn
  · simp only [Reso.toLeaf, bind, Except.bind, C133_probability_grid hr a b hn]
    cases r.probGrid (.lims a b) n with
    | error e => rfl
    | ok o => cases o <;> rfl

mutual
theorem grid_swap : ∀ (o : Obj), o.Standard → ∀ (a b : ℝ) {n : ℤ}, n ≠ 1 → SameUpToOrder (o.probGrid (.lims b a) n) (o.probGrid (.lims a b) n)
  | .num _, _, a, b, n, hn => by simp only [Obj.probGrid]; rfl
  | .leaf l, h, a, b, n, hn => by
      simp only [Obj.probGrid]
      rw [leaf_swap (by simpa [Obj.Standard] using h) a b hn]
      exact sameUpToOrder_map _
  | .const c, _, a, b, n, hn => by
      simp only [Obj.probGrid]
      rw [show constGrid (.lims b a) n = _ from linspace_swap a b hn]
      exact sameUpToOrder_map _
  | .wsum rs ss, h, a, b, n, hn => by
      simp only [Obj.probGrid, bind, Except.bind]
      have := grids_swap rs (by simpa [Obj.Standard] using h) a b hn
      revert this
      cases Obj.probGrids rs (.lims b a) n <;> cases Obj.probGrids rs (.lims a b) n <;> intro this
      · exact this
      · exact this
      · exact this
      · simp only [SameUpToOrder]; rw [npUnique_perm this]
theorem grids_swap : ∀ (os : List Obj), Obj.Standards os → ∀ (a b : ℝ) {n : ℤ}, n ≠ 1 →
    SameUpToOrder (Obj.probGrids os (.lims b a) n) (Obj.probGrids os (.lims a b) n)
  | [], _, a, b, n, hn => by simp [Obj.probGrids, SameUpToOrder]
  | o :: os, h, a, b, n, hn => by
      rw [Obj.Standards] at h
      simp only [Obj.probGrids, bind, Except.bind]
      have h1 := grid_swap o h.1 a b hn
      have h2 := grids_swap os h.2 a b hn
      revert h1 h2
      cases o.probGrid (.lims b a) n <;> cases o.probGrid (.lims a b) n <;> intro h1
      · exact fun _ => h1
      · exact absurd h1 (by simp [SameUpToOrder])
      · exact absurd h1 (by simp [SameUpToOrder])
      · cases Obj.probGrids os (.lims b a) n <;> cases Obj.probGrids os (.lims a b) n <;> intro h2
        · exact h2
        · exact h2
        · exact h2
        · exact h1.append h2
end

/-- C133: the grid of a weighted sum, nested in any way, does not depend on the order of the limits at all. -/
theorem C133_sum_grid (rs ss : List Obj) (h : (Obj.wsum rs ss).Standard) (a b : ℝ) {n : ℤ} (hn : n ≠ 1) :
    (Obj.wsum rs ss).probGrid (.lims b a) n = (Obj.wsum rs ss).probGrid (.lims a b) n := by
  have := grids_swap rs (by simpa [Obj.Standard] using h) a b hn
  simp only [Obj.probGrid, bind, Except.bind]
  revert this
  cases Obj.probGrids rs (.lims b a) n <;> cases Obj.probGrids rs (.lims a b) n <;> intro this
  · simp only [SameUpToOrder] at this; rw [this]
  · exact absurd this (by simp [SameUpToOrder])
  · exact absurd this (by simp [SameUpToOrder])
  · simp only [SameUpToOrder] at this; simp only [npUnique_perm this]

/-- C133 for one point: the order matters, each time the grid is one of the limits. -/
theorem C133_one_point {r : Reso} (h : IsBreitWigner r ∨ IsGauss r) (a b : ℝ) :
    r.probGrid (.lims b a) 1 = .ok (some [.fin a]) ∧ r.probGrid (.lims a b) 1 = .ok (some [.fin b]) := by
  obtain ⟨F, p, Q, hA⟩ := analytic_of h
  have key : ∀ a b, r.probGrid (.lims a b) 1 = .ok (some [.fin b]) := by
    intro a b
    unfold Reso.probGrid
    have := hA.ppf [F a] (by simp [hA.good.gt_zero a, hA.good.lt_one a])
    simp only [List.map_cons, List.map_nil] at this
    simp only [hA.cdf, List.map_cons, List.map_nil, bind, Except.bind, linspace_one, this, Reso.setEnds, Except.map]
  exact ⟨key b a, key a b⟩

example : ∃ r, Shape.breitWigner.build exConst exGround exExcited none = .ok r ∧
    (Obj.wsum [.leaf r.toLeaf, .const 1] [.num 1, .num 1]).Standard := by
  obtain ⟨r, h, -⟩ := exBreitWigner
  refine ⟨r, h, ?_⟩
  simp only [Obj.Standard, Obj.Standards, and_true]
  exact Or.inr ⟨.breitWigner, _, _, _, _, r, h, rfl⟩

end Ries
