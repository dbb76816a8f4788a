import Verif.Props.Darboux
import Verif.Props.CrossSectionExact
import Verif.Props.Grid
import Mathlib.MeasureTheory.Integral.IntervalIntegral.FundThmCalculus

/-! # Properties C148, C149: Darboux sums on descending partitions, and of cross sections -/

namespace Ries

/-! ## C148 -/

/-- If the lower sum of a continuous function is the integral, the upper sum is the lower sum. -/
theorem dsum_eq_integral {f : ℝ → ℝ} (hf : Continuous f) (x : ℝ) (xs : List ℝ) (hx : (x :: xs).IsChain (· ≤ ·))
    (hm : (x :: xs).IsChain (MonoPiece f))
    (he : dsum min x xs (f x) (xs.map f) = ∫ t in x..((x :: xs).getLast (by simp)), f t) :
    dsum max x xs (f x) (xs.map f) = dsum min x xs (f x) (xs.map f) := by
  induction xs generalizing x with
  | nil => simp [dsum]
  | cons x' xs ih =>
    have hx' := List.isChain_cons_cons.1 hx
    have hm' := List.isChain_cons_cons.1 hm
    obtain ⟨i1, i2, i3⟩ := dsum_integral f x' xs hx'.2 hm'.2
    have j := hm'.1.integrable hx'.1
    simp only [List.getLast_cons_cons, List.map_cons, dsum] at he ⊢
    rw [← intervalIntegral.integral_add_adjacent_intervals j i1] at he
    have lo : ∫ t in x..x', min (f x) (f x') ≤ ∫ t in x..x', f t :=
      intervalIntegral.integral_mono_on hx'.1 (by simp) j (fun t ht => (hm'.1.bounds ht).1)
    simp only [intervalIntegral.integral_const, smul_eq_mul] at lo
    have e1 : min (f x) (f x') * (x' - x) = ∫ t in x..x', f t := by linarith
    rw [ih x' hx'.2 hm'.2 (by linarith)]
    congr 1
    rcases hx'.1.eq_or_lt with h | h
    · rw [h]; ring
    have key : ∀ c ∈ Set.Icc x x', f c ≤ min (f x) (f x') := by
      intro c hc
      by_contra hcon
      push Not at hcon
      have hpos : 0 < ∫ t in x..x', (f t - min (f x) (f x')) :=
        intervalIntegral.integral_pos h (hf.sub continuous_const).continuousOn
          (fun t ht => sub_nonneg.2 (hm'.1.bounds ⟨ht.1.le, ht.2⟩).1) ⟨c, hc, sub_pos.2 hcon⟩
      rw [intervalIntegral.integral_sub j (by simp), intervalIntegral.integral_const, smul_eq_mul] at hpos
      linarith
    have h1 := key x ⟨le_rfl, h.le⟩
    have h2 := key x' ⟨h.le, le_rfl⟩
    have h3 : f x = f x' := le_antisymm (h1.trans (min_le_right _ _)) (h2.trans (min_le_left _ _))
    rw [h3, max_self, min_self]

/-- C148 is false of the code: on the partition 1, 0 the sums returned for the identity are 0 and 0 + 1, although the integral from 1
to 0 is -1/2. -/
theorem C148_refuted : ¬ ∀ (f : ℝ → ℝ) (x : List ℝ) (hne : x ≠ []), (x.IsChain (· ≤ ·) ∨ x.IsChain (· ≥ ·)) →
    x.IsChain (fun a b => MonotoneOn f (Set.uIcc a b) ∨ AntitoneOn f (Set.uIcc a b)) →
    ∃ L D, darboux (vectorised f) x = .ok (L, D) ∧ L ≤ ∫ t in x.head hne..x.getLast hne, f t ∧
      (∫ t in x.head hne..x.getLast hne, f t) ≤ L + D := by
  intro hall
  obtain ⟨L, D, h1, h2, h3⟩ := hall id [1, 0] (by simp) (.inr (by norm_num [List.isChain_cons_cons]))
    (List.isChain_cons_cons.2 ⟨.inl (monotone_id.monotoneOn _), by simp⟩)
  rw [darboux_fun] at h1
  simp only [List.map_cons, List.map_nil, dsum, id, Except.ok.injEq, Prod.mk.injEq] at h1
  norm_num at h1 h2
  linarith [h1.1]

/-- C148, the part that holds: on a descending partition with `f` monotone on every interval, the first number returned is an *upper*
bound of the integral from the first to the last point, and subtracting the second gives a lower bound. For a continuous function the
documented bounds hold exactly if the second number is 0, i.e. the sums are exact. -/
theorem C148_partial (f : ℝ → ℝ) (x : List ℝ) (hne : x ≠ []) (hx : x.IsChain (· ≥ ·))
    (hm : x.IsChain (fun a b => MonotoneOn f (Set.Icc b a) ∨ AntitoneOn f (Set.Icc b a))) :
    ∃ L D, darboux (vectorised f) x = .ok (L, D) ∧ 0 ≤ D ∧ L - D ≤ ∫ t in x.head hne..x.getLast hne, f t ∧
      (∫ t in x.head hne..x.getLast hne, f t) ≤ L ∧
      (Continuous f → ((L ≤ ∫ t in x.head hne..x.getLast hne, f t) ∧ (∫ t in x.head hne..x.getLast hne, f t) ≤ L + D ↔ D = 0)) := by
  obtain ⟨y, rfl⟩ : ∃ y, x = y.reverse := ⟨x.reverse, by simp⟩
  have hny : y ≠ [] := by simpa using hne
  have hy : y.IsChain (· ≤ ·) := by simpa [List.isChain_reverse, flip] using hx
  have hmy : y.IsChain (MonoPiece f) := by simpa [List.isChain_reverse, flip] using hm
  obtain ⟨L, D, e1, e2, e3, e4⟩ := C61_brackets_integral f y hny hy hmy
  obtain ⟨q1, L', D', q2, q3, -⟩ := C64_function_vs_values y (y.map f) f hny (by simp)
  rw [q1, q2] at e1
  simp only [Except.ok.injEq, Prod.mk.injEq] at e1
  obtain ⟨rfl, rfl⟩ := e1
  have q4 := (C64_function_vs_values y.reverse (y.reverse.map f) f hne (by simp)).1
  have e5 : (∫ t in y.reverse.head hne..y.reverse.getLast hne, f t) = -∫ t in y.head hny..y.getLast hny, f t := by
    rw [intervalIntegral.integral_symm, List.head_reverse, List.getLast_reverse]
  refine ⟨-L', D', by rw [q4, List.map_reverse, q3], e2, by rw [e5]; linarith, by rw [e5]; linarith, fun hf => ?_⟩
  rw [e5]
  constructor
  · rintro ⟨h1, -⟩
    have h0 : L' = ∫ t in y.head hny..y.getLast hny, f t := by linarith
    cases y with
    | nil => exact absurd rfl hny
    | cons a as =>
      rw [← q1, darboux_fun] at q2
      simp only [Except.ok.injEq, Prod.mk.injEq] at q2
      obtain ⟨rfl, rfl⟩ := q2
      rw [dsum_eq_integral hf a as hy hmy h0, sub_self, abs_zero]
  · intro h
    constructor <;> linarith

/-- The hypotheses hold for the absolute value on 2, 0, -1. -/
example : ([2, 0, -1] : List ℝ).IsChain (· ≥ ·) ∧ ([2, 0, -1] : List ℝ).IsChain (fun a b =>
    MonotoneOn (fun t : ℝ => |t|) (Set.Icc b a) ∨ AntitoneOn (fun t : ℝ => |t|) (Set.Icc b a)) := by
  constructor
  · norm_num [List.isChain_cons_cons]
  · refine List.isChain_cons_cons.2 ⟨.inl ?_, List.isChain_cons_cons.2 ⟨.inr ?_, by simp⟩⟩
    · intro a ha b hb hab
      simp only [abs_of_nonneg ha.1, abs_of_nonneg hb.1]; exact hab
    · intro a ha b hb hab
      simp only [abs_of_nonpos ha.2, abs_of_nonpos hb.2]; linarith

/-! ## C149 -/

open Obj

/-- C149 is false of the code: a constant cross section cannot be integrated over the grid it returns itself. -/
theorem C149_refuted : ¬ ∀ o : Obj, WF o → ∀ (a b : ℝ) (n : ℤ) (g : List ℝ), a < b → 2 ≤ n →
    o.probGrid (.lims a b) n = .ok (g.map .fin) → (∀ E ∈ g, Evaluable E o) → ∃ r, darbouxOf o g = .ok r := by
  intro h
  obtain ⟨g, h1, -⟩ := C10_energy_grid 0 1 2 le_rfl
  obtain ⟨r, hr⟩ := h (.const 1) (.const 1) 0 1 2 g (by norm_num) le_rfl (by rw [← h1]; rfl) (fun E _ => .const 1)
  simp [darbouxOf, callArr, darboux, bind, Except.bind] at hr

/-- C149, exactly: a cross section built from numbers, constants and other cross sections can be integrated over an array of energies
at which it can be evaluated exactly if it contains something else than constants; otherwise `TypeError`. The result is then that of
the function with the same values. -/
theorem C149_iff (o : Obj) (h : WF o) (x : List ℝ) (hne : x ≠ []) (he : ∀ E ∈ x, Evaluable E o) :
    ((∃ r, darbouxOf o x = .ok r) ↔ Varies o) ∧ (¬ Varies o → darbouxOf o x = .error .typeError) ∧
    (Varies o → ∀ σ : ℝ → ℝ, (∀ E ∈ x, o.call E = .ok (.num (σ E))) → darbouxOf o x = darboux (vectorised σ) x) := by
  have hd : ∀ v, o.callArr x = .ok v → darbouxOf o x = darboux (.vals v) x := by
    intro v hv; simp [darbouxOf, hv, bind, Except.bind]
  have hs : ¬ Varies o → ∃ c, o.callArr x = .ok (.sc c) := by
    intro hn
    cases o with
    | num c => cases h
    | leaf l => exact absurd (Varies.leaf l) hn
    | const c => exact ⟨c, by simp [callArr]⟩
    | wsum rs ss =>
      obtain ⟨v, h1, -, h3⟩ := C06_array_shape_iff rs ss h x he
      obtain ⟨c, rfl⟩ := h3 hn
      exact ⟨c, h1⟩
  have hno : ¬ Varies o → darbouxOf o x = .error .typeError := by
    intro hn
    obtain ⟨c, hc⟩ := hs hn
    rw [hd _ hc]; simp [darboux]
  have hyes : Varies o → ∃ v, o.callArr x = .ok (.arr v) ∧ v.length = x.length ∧
      ∀ i (hi : i < x.length), ∃ y, o.call x[i] = .ok (.num y) ∧ v[i]? = some y := by
    intro hv
    obtain ⟨v, h1, -, h3, h4⟩ := callArr_spec h x he
    have h5 := h3 hv
    cases v with
    | sc c => exact absurd h5 (by simp [Val.hasLen])
    | arr v =>
      refine ⟨v, h1, h5, fun i hi => ?_⟩
      obtain ⟨y, y1, y2⟩ := h4 i hi
      exact ⟨y, by rw [call_eq_value _ h, y1]; rfl, by simpa [Val.at] using y2⟩
  refine ⟨⟨fun ⟨r, hr⟩ => ?_, fun hv => ?_⟩, hno, fun hv σ hσ => ?_⟩
  · by_contra hn
    rw [hno hn] at hr
    cases hr
  · obtain ⟨v, v1, v2, -⟩ := hyes hv
    obtain ⟨L, D, e, -⟩ := C62_gap_formula x v hne v2.symm
    exact ⟨(L, D), by rw [hd _ v1, e]⟩
  · obtain ⟨v, v1, v2, v3⟩ := hyes hv
    have : v = x.map σ := by
      refine List.ext_getElem (by simp [v2]) fun i h1 h2 => ?_
      have hi : i < x.length := by omega
      obtain ⟨y, y1, y2⟩ := v3 i hi
      rw [hσ _ (List.getElem_mem hi)] at y1
      rw [List.getElem?_eq_getElem h1] at y2
      simp only [Except.ok.injEq, Obj.num.injEq, Option.some.injEq] at y1 y2
      simp [y2, y1]
    rw [hd _ v1, this]
    exact ((C64_function_vs_values x (x.map σ) σ hne (by simp)).1).symm

/-- A constant plus another cross section on two energies. -/
example : WF (.wsum [.const 1, .leaf exLeaf] [.num 1, .num 2]) ∧
    ∀ E ∈ [(1:ℝ), 2], Evaluable E (.wsum [.const 1, .leaf exLeaf] [.num 1, .num 2]) := by
  refine ⟨.wsum _ _ ?_ ?_ (by simp), fun E _ => .wsum _ _ ?_⟩
  · intro r hr; simp at hr; rcases hr with rfl | rfl
    · exact .const 1
    · exact .leaf _
  · intro s hs; simp at hs; rcases hs with rfl | rfl <;> exact ⟨_, rfl⟩
  · intro r hr; simp at hr; rcases hr with rfl | rfl
    · exact .const 1
    · exact .leaf _ E rfl

end Ries
