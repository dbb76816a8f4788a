import Verif.Spec.FloatSum
import Verif.Lemmas.RoundedIntegral
import Verif.Props.Grid

/-! # Sums of cross sections on their common grid in floating point -/

open MeasureTheory Set

namespace Ries

/-- every piece of a refinement is contained in a piece of the grid, or empty -/
theorem refined_piece {a b : ℝ} {g : List ℝ} (hord : OrderedInside a b g) (hhead : g.head? = some a) (hlast : g.getLast? = some b)
    {x : ℕ → ℝ} {n : ℕ} (hx : Monotone x) (h0 : x 0 = a) (hn : x n = b) (hg : ∀ y ∈ g, ∃ i ≤ n, x i = y) {i : ℕ} (hi : i < n) :
    x i = x (i + 1) ∨ ∃ j, ∃ h : j + 1 < g.length, g[j] ≤ x i ∧ x (i + 1) ≤ g[j + 1] := by
  have hne : g ≠ [] := by rintro rfl; simp at hhead
  have hlen : 0 < g.length := List.length_pos_iff.2 hne
  have e0 : g[0] = a := by
    rw [List.head?_eq_getElem?, List.getElem?_eq_getElem hlen] at hhead
    simpa using hhead
  have e1 : g[g.length - 1] = b := by
    rw [List.getLast?_eq_getElem?, List.getElem?_eq_getElem (by omega)] at hlast
    simpa using hlast
  by_cases hall : ∀ j, ∀ h : j < g.length, g[j] ≤ x i
  · left
    have := hall (g.length - 1) (by omega)
    rw [e1] at this
    have h1 := hx (Nat.le_succ i)
    have h2 := hx (show i + 1 ≤ n by omega)
    simp only [Nat.succ_eq_add_one] at h1
    linarith
  · right
    push Not at hall
    classical
    obtain ⟨j, ⟨hj, hlt⟩, hmin⟩ : ∃ j, (∃ h : j < g.length, x i < g[j]) ∧ ∀ k < j, ¬ ∃ h : k < g.length, x i < g[k] := by
      have hex : ∃ j, ∃ h : j < g.length, x i < g[j] := hall
      exact ⟨Nat.find hex, Nat.find_spec hex, fun k hk => Nat.find_min hex hk⟩
    rcases Nat.eq_zero_or_pos j with rfl | hpos
    · have := hx (Nat.zero_le i)
      rw [e0] at hlt
      linarith
    · obtain ⟨k, rfl⟩ : ∃ k, j = k + 1 := ⟨j - 1, by omega⟩
      refine ⟨k, hj, ?_, ?_⟩
      · have := hmin k (by omega)
        push Not at this
        exact this (by omega)
      · obtain ⟨l, -, hl⟩ := hg _ (List.getElem_mem hj)
        rw [← hl] at hlt ⊢
        refine hx ?_
        by_contra hc
        have := hx (show l ≤ i by omega)
        linarith

/-- a peaked cross section on a grid whose intervals carry at most the fraction `V` -/
theorem refined_peaked {F p σ : ℝ → ℝ} {I V a b c : ℝ} (hF : GoodCDF F p) (hp : Peaked c p) (hI : 0 < I) (hσ : σ = fun E => I * p E)
    {g : List ℝ} {m : ℕ} (hlen : g.length = m + 2) (hhead : g.head? = some a) (hlast : g.getLast? = some b) (hord : OrderedInside a b g)
    (hV : ∀ i, (h : i + 1 < g.length) → F g[i + 1] - F g[i] ≤ V) :
    RefinedWithin a b g σ (2 * σ c / min (σ a) (σ b) * (V * ∫ E, σ E)) := by
  intro x n hx h0 hn hg c' _
  have hcont : Continuous σ := by rw [hσ]; exact continuous_const.mul hF.cont
  have hpos : ∀ x, 0 < σ x := by rw [hσ]; exact fun x => mul_pos hI (hF.pos x)
  have hpk : Peaked c σ := by rw [hσ]; exact hp.const_mul hI
  have hint : ∀ s t, ∫ E in s..t, σ E = I * (F t - F s) := by
    intro s t
    rw [hσ, intervalIntegral.integral_const_mul, intervalIntegral.integral_eq_sub_of_hasDerivAt (fun x _ => hF.deriv x) (hF.cont.intervalIntegrable _ _)]
  have hall : ∫ E, σ E = I := by rw [hσ, integral_const_mul, hF.integral, mul_one]
  have hV0 : 0 ≤ V := by
    have h1 := hV 0 (by omega)
    have h2 := hF.strictMono.monotone (List.pairwise_iff_getElem.1 hord.1 0 1 (by omega) (by omega) (by omega))
    simp only [zero_add] at h1
    linarith
  have hpiece : ∀ i < n, ∫ t in x i..x (i + 1), σ t ≤ V * I := by
    intro i hi
    rw [hint]
    rcases refined_piece hord hhead hlast hx h0 hn hg hi with e | ⟨j, hj, h1, h2⟩
    · rw [e, sub_self, mul_zero]
      positivity
    · have f1 := hF.strictMono.monotone h1
      have f2 := hF.strictMono.monotone h2
      rw [mul_comm]
      exact mul_le_mul_of_nonneg_right (by linarith [hV j hj]) hI.le
  have := peaked_sums_choice hpk hpos hcont hx n hpiece (mul_nonneg hV0 hI.le) (g := fun i y y' => if c' i then y else y')
    (fun i y y' => by by_cases h : c' i <;> simp [h])
  rw [h0, hn, ← hall] at this
  refine le_trans (le_of_eq ?_) this
  congr 2
  refine Finset.sum_congr rfl fun i _ => ?_
  by_cases h : c' i <;> simp [h]

/-- a cross section whose variation is bounded by the increase of `V`, on a grid whose intervals have at most the length `δ` -/
theorem refined_variation {f V : ℝ → ℝ} {a b δ : ℝ} (hf : ContinuousOn f (Icc a b))
    (hV : ∀ s ∈ Icc a b, ∀ t ∈ Icc a b, s ≤ t → |f t - f s| ≤ V t - V s) {g : List ℝ} (hδ : 0 ≤ δ)
    (hhead : g.head? = some a) (hlast : g.getLast? = some b) (hord : OrderedInside a b g)
    (hd : ∀ i, (h : i + 1 < g.length) → g[i + 1] - g[i] ≤ δ) :
    RefinedWithin a b g f (δ * (V b - V a)) := by
  intro x n hx h0 hn hg c _
  have hmem : ∀ i ≤ n, x i ∈ Icc a b := fun i hi => ⟨h0 ▸ hx (Nat.zero_le i), hn ▸ hx hi⟩
  have hint : ∀ s ∈ Icc a b, ∀ t ∈ Icc a b, IntervalIntegrable f volume s t := fun s hs t ht =>
    (hf.mono (uIcc_subset_Icc hs ht)).intervalIntegrable
  have piece : ∀ i < n, |f (if c i then x i else x (i + 1)) * (x (i + 1) - x i) - ∫ t in x i..x (i + 1), f t| ≤
      δ * (V (x (i + 1)) - V (x i)) := by
    intro i hi
    have hs := hmem i hi.le
    have ht := hmem (i + 1) hi
    have hst := hx (Nat.le_succ i)
    simp only [Nat.succ_eq_add_one] at hst
    have hlen : x (i + 1) - x i ≤ δ := by
      rcases refined_piece hord hhead hlast hx h0 hn hg hi with e | ⟨j, hj, h1, h2⟩
      · rw [e, sub_self]; exact hδ
      · linarith [hd j hj]
    set y := f (if c i then x i else x (i + 1)) with hy
    have hI := hint _ hs _ ht
    generalize x i = s at *
    generalize x (i + 1) = t at *
    have hyP : ∀ v ∈ Icc s t, |y - f v| ≤ V t - V s := by
      intro v hv
      have hv' : v ∈ Icc a b := ⟨hs.1.trans hv.1, hv.2.trans ht.2⟩
      have h1 := hV s hs v hv' hv.1
      have h2 := hV v hv' t ht hv.2
      have h3 := (abs_nonneg _).trans h1
      have h4 := (abs_nonneg _).trans h2
      rw [hy]
      split_ifs
      · rw [abs_sub_comm]; linarith
      · linarith
    have e : y * (t - s) - ∫ v in s..t, f v = ∫ v in s..t, (y - f v) := by
      rw [intervalIntegral.integral_sub (by simp) hI]; simp [mul_comm]
    rw [e]
    have := intervalIntegral.norm_integral_le_of_norm_le_const (a := s) (b := t) (f := fun v => y - f v) (C := V t - V s) (fun v hv => by
      rw [uIoc_of_le hst] at hv
      exact hyP v ⟨hv.1.le, hv.2⟩)
    rw [Real.norm_eq_abs, abs_of_nonneg (sub_nonneg.2 hst)] at this
    have h3 : 0 ≤ V t - V s := (abs_nonneg _).trans (hV s hs t ht hst)
    exact this.trans (by rw [mul_comm]; exact mul_le_mul_of_nonneg_right hlen h3)
  rw [← h0, ← hn, ← intervalIntegral.sum_integral_adjacent_intervals (fun i hi => hint _ (hmem i hi.le) _ (hmem (i + 1) hi)), ← Finset.sum_sub_distrib]
  refine (Finset.abs_sum_le_sum_abs _ _).trans ((Finset.sum_le_sum fun i hi => piece i (Finset.mem_range.1 hi)).trans ?_)
  rw [← Finset.mul_sum, Finset.sum_range_sub (fun i => V (x i))]

/-- a constant needs no points between -/
theorem refined_const (a b k : ℝ) (g : List ℝ) : RefinedWithin a b g (fun _ => k) 0 := by
  intro x n _ h0 hn _ c _
  rw [← Finset.mul_sum, Finset.sum_range_sub, h0, hn]
  simp [mul_comm]

end Ries
