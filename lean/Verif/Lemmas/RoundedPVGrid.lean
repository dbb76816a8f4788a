import Verif.Model.RoundedPVGrid
import Verif.Lemmas.Coverage
import Verif.Lemmas.RoundedProbGrid
import Verif.Props.FloatQuantiles

/-! # Quantiles of coverage intervals and grids in floating point -/

namespace Ries

variable {fl Fc pc F p : ℝ → ℝ} {u η ε : ℝ}

/-- the points of `linspace` between two probabilities -/
theorem linspaceR_near (hfl : Rounding u fl) (hu0 : 0 ≤ u) (hu1 : u ≤ 1 / 1000) {l0 l1 : ℝ} (h0 : 0 ≤ l0) (h0' : l0 ≤ 1) (h1 : 0 ≤ l1)
    (h1' : l1 ≤ 1) (m : ℕ) : (linspaceR fl l0 l1 m).length = m + 2 ∧ ∀ i, (h : i < (linspaceR fl l0 l1 m).length) →
      |(linspaceR fl l0 l1 m)[i] - (l0 + i * ((l1 - l0) / (m + 1)))| ≤ 5 * u := by
  refine ⟨by simp [linspaceR], fun i h => ?_⟩
  have hm : (0 : ℝ) < m + 1 := by positivity
  have hlen : i < m + 2 := by
    have := h
    simp [linspaceR] at this
    omega
  rcases Nat.lt_or_ge i (m + 1) with hi | hi
  · have e : (linspaceR fl l0 l1 m)[i] = fl (fl (i * fl (fl (l1 - l0) / (m + 1))) + l0) := by
      simp only [linspaceR]
      rw [List.getElem_append_left (by simpa using hi)]
      simp
    rw [e]
    have hD : |l1 - l0| ≤ 1 := abs_le.2 ⟨by linarith, by linarith⟩
    have r1 := hfl (l1 - l0)
    have r2 := hfl (fl (l1 - l0) / (m + 1))
    have r3 := hfl (i * fl (fl (l1 - l0) / (m + 1)))
    have r4 := hfl (fl (i * fl (fl (l1 - l0) / (m + 1))) + l0)
    have ht0 : 0 ≤ (i : ℝ) / (m + 1) := by positivity
    have ht1 : (i : ℝ) / (m + 1) ≤ 1 := by
      rw [div_le_one hm]
      have : (i : ℝ) < m + 1 := by exact_mod_cast hi
      linarith
    generalize fl (fl (i * fl (fl (l1 - l0) / (m + 1))) + l0) = y at *
    generalize fl (i * fl (fl (l1 - l0) / (m + 1))) = s3 at *
    generalize fl (fl (l1 - l0) / (m + 1)) = s2 at *
    generalize fl (l1 - l0) = s1 at *
    have a1 : |s1 - (l1 - l0)| ≤ u := r1.trans (by nlinarith)
    have b1 : |s1| ≤ 1 + u := by
      have := abs_add_le (s1 - (l1 - l0)) (l1 - l0)
      rw [sub_add_cancel] at this
      linarith
    -- the product of index and step
    have a2 : |i * s2 - (i : ℝ) / (m + 1) * s1| ≤ u * (1 + u) := by
      have e2 : i * s2 - (i : ℝ) / (m + 1) * s1 = i * (s2 - s1 / (m + 1)) := by ring
      rw [e2, abs_mul, Nat.abs_cast]
      have : (i : ℝ) * |s2 - s1 / (m + 1)| ≤ i * (u * |s1 / (m + 1)|) := mul_le_mul_of_nonneg_left r2 (Nat.cast_nonneg i)
      rw [abs_div, abs_of_pos hm] at this
      calc _ ≤ _ := this
        _ = u * ((i : ℝ) / (m + 1) * |s1|) := by ring
        _ ≤ u * (1 + u) := mul_le_mul_of_nonneg_left (by nlinarith [abs_nonneg s1]) hu0
    have a3 : |(i : ℝ) / (m + 1) * s1 - i * ((l1 - l0) / (m + 1))| ≤ u := by
      have e3 : (i : ℝ) / (m + 1) * s1 - i * ((l1 - l0) / (m + 1)) = (i : ℝ) / (m + 1) * (s1 - (l1 - l0)) := by ring
      rw [e3, abs_mul, abs_of_nonneg ht0]
      nlinarith [abs_nonneg (s1 - (l1 - l0))]
    have b2 : |i * ((l1 - l0) / (m + 1))| ≤ 1 := by
      have e4 : (i : ℝ) * ((l1 - l0) / (m + 1)) = (i : ℝ) / (m + 1) * (l1 - l0) := by ring
      rw [e4, abs_mul, abs_of_nonneg ht0]
      nlinarith [abs_nonneg (l1 - l0)]
    have b4 : |l0 + i * ((l1 - l0) / (m + 1))| ≤ 1 := by
      have e4 : l0 + (i : ℝ) * ((l1 - l0) / (m + 1)) = (1 - (i : ℝ) / (m + 1)) * l0 + (i : ℝ) / (m + 1) * l1 := by ring
      rw [e4]
      exact abs_le.2 ⟨by nlinarith, by nlinarith⟩
    generalize (i : ℝ) * ((l1 - l0) / (m + 1)) = z at *
    generalize (i : ℝ) / (m + 1) * s1 = v at *
    generalize (i : ℝ) * s2 = k at *
    have c1 := abs_add_le (k - v) (v - z)
    rw [show k - v + (v - z) = k - z by ring] at c1
    have c2 : |k| ≤ 1.003 := by
      have := abs_add_le (k - z) z
      rw [sub_add_cancel] at this
      nlinarith
    have c3 := abs_add_le (s3 - k) (k - z)
    rw [show s3 - k + (k - z) = s3 - z by ring] at c3
    have c4 : |s3 + l0| ≤ 1.004 := by
      have := abs_add_le (s3 - z) (l0 + z)
      rw [show s3 - z + (l0 + z) = s3 + l0 by ring] at this
      nlinarith
    have c5 := abs_add_le (y - (s3 + l0)) (s3 - z)
    rw [show y - (s3 + l0) + (s3 - z) = y - (l0 + z) by ring] at c5
    nlinarith
  · obtain rfl : i = m + 1 := by omega
    have e : (linspaceR fl l0 l1 m)[m + 1] = l1 := by simp [linspaceR]
    rw [e]
    push_cast
    rw [mul_div_cancel₀ _ hm.ne', show l1 - (l0 + (l1 - l0)) = 0 by ring, abs_zero]
    positivity

/-- rounding errors are small compared to `ε` -/
theorem float_small {er Γ : ℝ} (hu0 : 0 ≤ u) (hη0 : 0 ≤ η) (hε : 0 < ε) (hε1 : ε ≤ 1 / 2) (hΓ7 : 1e-7 ≤ Γ)
    (hn : u * (|er| + 2 * Γ / ε) + 3 * (η + u) * Γ ≤ 5e-11 * ε ^ 2) : u ≤ 1e-4 * ε ∧ η ≤ 1e-4 * ε := by
  have hΓ0 : 0 < Γ := by linarith
  have h1 : 0 ≤ u * |er| := by positivity
  have h2 : 0 ≤ (η + u) * Γ := by positivity
  constructor
  · have h3 : u * (2 * Γ / ε) ≤ 5e-11 * ε ^ 2 := by nlinarith
    rw [mul_div_assoc', div_le_iff₀ hε] at h3
    have h4 : u * (2 * 1e-7) ≤ u * (2 * Γ) := mul_le_mul_of_nonneg_left (by linarith) hu0
    have h5 : ε ^ 2 * ε ≤ 0.25 * ε := mul_le_mul_of_nonneg_right (by nlinarith) hε.le
    norm_num at *
    nlinarith
  · have h3 : 0 ≤ u * (2 * Γ / ε) := by positivity
    have h4 : 3 * η * Γ ≤ 5e-11 * ε ^ 2 := by nlinarith
    have h5 : 3 * η * 1e-7 ≤ 3 * η * Γ := mul_le_mul_of_nonneg_left hΓ7 (by positivity)
    have h6 : ε ^ 2 ≤ 0.5 * ε := by nlinarith
    norm_num at *
    nlinarith

/-- the quantiles of a coverage -/
theorem coverage_quantiles (hfl : Rounding u fl) (hu0 : 0 ≤ u) (hu1 : u ≤ 1 / 1000) {c : ℝ} (h0 : 0 ≤ c) (h1 : c ≤ 1) :
    |fl (0.5 * fl (1 - c)) - (1 - c) / 2| ≤ 1.01 * u ∧ |fl (0.5 * fl (1 + c)) - (1 + c) / 2| ≤ 2.01 * u := by
  have r1 := hfl (1 - c)
  have r2 := hfl (0.5 * fl (1 - c))
  have r3 := hfl (1 + c)
  have r4 := hfl (0.5 * fl (1 + c))
  rw [abs_of_nonneg (by linarith : 0 ≤ 1 - c)] at r1
  rw [abs_of_nonneg (by linarith : 0 ≤ 1 + c)] at r3
  generalize fl (0.5 * fl (1 - c)) = y at *
  generalize fl (0.5 * fl (1 + c)) = z at *
  generalize fl (1 - c) = s at *
  generalize fl (1 + c) = t at *
  have hs : |0.5 * s| ≤ 0.501 := by
    obtain ⟨a, b⟩ := abs_le.1 r1
    exact abs_le.2 ⟨by nlinarith, by nlinarith⟩
  have ht : |0.5 * t| ≤ 1.001 := by
    obtain ⟨a, b⟩ := abs_le.1 r3
    exact abs_le.2 ⟨by nlinarith, by nlinarith⟩
  constructor
  · have := abs_add_le (y - 0.5 * s) (0.5 * (s - (1 - c)))
    rw [show y - 0.5 * s + 0.5 * (s - (1 - c)) = y - (1 - c) / 2 by ring, abs_mul, abs_of_pos (by norm_num : (0 : ℝ) < 0.5)] at this
    nlinarith
  · have := abs_add_le (z - 0.5 * t) (0.5 * (t - (1 + c)))
    rw [show z - 0.5 * t + 0.5 * (t - (1 + c)) = z - (1 + c) / 2 by ring, abs_mul, abs_of_pos (by norm_num : (0 : ℝ) < 0.5)] at this
    nlinarith

theorem computed_ppf (fl Fc pc : ℝ → ℝ) (mix : ℝ → Fl) (er : ℝ) (qs : List ℝ) :
    (PV.computed fl Fc pc mix er).ppf [] (qs.map .fin) = .ok (PV.ppfArrayR fl Fc pc mix er qs).values := by
  simp [PV.computed, finList_map]

end Ries
