import Verif.Lemmas.KleinNishina
import Mathlib.Analysis.SpecialFunctions.Log.Deriv
import Mathlib.Analysis.SpecialFunctions.Pow.Asymptotics

/-! # Expansion of the Klein-Nishina formula at low and high energies -/

namespace Ries
open Real KN Filter Topology

theorem ang_expand {u s : ℝ} (hu : 0 ≤ u) (hs : 0 ≤ s) (hs1 : s ≤ 1) :
    |(1 / (1 + u)) ^ 3 + 1 / (1 + u) - (1 / (1 + u)) ^ 2 * s - ((2 - s) - (4 - 2 * s) * u)| ≤ 7 * u ^ 2 := by
  have h1 : 0 < 1 + u := by linarith
  have e : (1 / (1 + u)) ^ 3 + 1 / (1 + u) - (1 / (1 + u)) ^ 2 * s - ((2 - s) - (4 - 2 * s) * u) =
      u ^ 2 * (7 + 10 * u + 4 * u ^ 2 - s * (3 + 2 * u) * (1 + u)) / (1 + u) ^ 3 := by
    field_simp
    ring
  rw [e, abs_le]
  have h3 : 0 < (1 + u) ^ 3 := by positivity
  have hu2 := sq_nonneg u
  constructor
  · rw [le_div_iff₀ h3]
    have : 0 ≤ u ^ 2 * (7 + 10 * u + 4 * u ^ 2 - s * (3 + 2 * u) * (1 + u)) := by
      apply mul_nonneg hu2
      have : s * ((3 + 2 * u) * (1 + u)) ≤ 1 * ((3 + 2 * u) * (1 + u)) := mul_le_mul_of_nonneg_right hs1 (by positivity)
      nlinarith
    have : 0 ≤ 7 * u ^ 2 * (1 + u) ^ 3 := by positivity
    linarith
  · rw [div_le_iff₀ h3]
    have a : 0 ≤ s * (3 + 2 * u) * (1 + u) := by positivity
    have b : 7 + 10 * u + 4 * u ^ 2 ≤ 7 * (1 + u) ^ 3 := by nlinarith [pow_nonneg hu 3]
    have : u ^ 2 * (7 + 10 * u + 4 * u ^ 2 - s * (3 + 2 * u) * (1 + u)) ≤ u ^ 2 * (7 * (1 + u) ^ 3) :=
      mul_le_mul_of_nonneg_left (by linarith) hu2
    linarith

theorem integral_of_cos {g g' : ℝ → ℝ} (hg : ∀ c, HasDerivAt g (g' c) c) (hc : Continuous g') :
    ∫ θ in (0 : ℝ)..π, -g' (cos θ) * sin θ = g (-1) - g 1 := by
  have := intervalIntegral.integral_eq_sub_of_hasDerivAt (a := 0) (b := π) (f := fun θ => g (cos θ))
    (f' := fun θ => -g' (cos θ) * sin θ) (fun θ _ => ((hg (cos θ)).comp θ (hasDerivAt_cos θ)).congr_deriv (by ring))
    (by apply Continuous.intervalIntegrable; fun_prop)
  rw [this, cos_pi, cos_zero]

/-- first-order expansion with an explicit remainder -/
theorem angInt_expand {x : ℝ} (hx : 0 ≤ x) : |angInt x - 8 / 3 * (1 - 2 * x)| ≤ 8 / 3 * (7 * x ^ 2) := by
  have i1 : ∫ θ in (0 : ℝ)..π, ((2 - sin θ ^ 2) - (4 - 2 * sin θ ^ 2) * (x * (1 - cos θ))) * sin θ = 8 / 3 * (1 - 2 * x) := by
    have h := integral_of_cos (g := fun c => -c - c ^ 3 / 3 + 2 * x * (c - c ^ 2 / 2 + c ^ 3 / 3 - c ^ 4 / 4))
      (g' := fun c => -(1 + c ^ 2) + 2 * x * (1 - c + c ^ 2 - c ^ 3)) (by
        intro c
        have h3 := (hasDerivAt_pow 3 c).div_const 3
        have h := ((hasDerivAt_id c).neg.sub h3).add (((((hasDerivAt_id c).sub ((hasDerivAt_pow 2 c).div_const 2)).add h3).sub
          ((hasDerivAt_pow 4 c).div_const 4)).const_mul (2 * x))
        refine h.congr_deriv ?_
        norm_num
        ring) (by fun_prop)
    rw [show 8 / 3 * (1 - 2 * x) = (-(-1) - (-1) ^ 3 / 3 + 2 * x * ((-1) - (-1) ^ 2 / 2 + (-1) ^ 3 / 3 - (-1) ^ 4 / 4)) -
      (-1 - 1 ^ 3 / 3 + 2 * x * (1 - 1 ^ 2 / 2 + 1 ^ 3 / 3 - 1 ^ 4 / 4)) by ring, ← h]
    refine intervalIntegral.integral_congr fun θ _ => ?_
    simp only [sin_sq]
    ring
  have i2 : ∫ θ in (0 : ℝ)..π, (7 * (x * (1 - cos θ)) ^ 2) * sin θ = 8 / 3 * (7 * x ^ 2) := by
    have h := integral_of_cos (g := fun c => 7 * x ^ 2 * ((1 - c) ^ 3 / 3)) (g' := fun c => -(7 * x ^ 2 * (1 - c) ^ 2)) (by
        intro c
        have h := ((((hasDerivAt_id c).const_sub 1).pow 3).div_const 3).const_mul (7 * x ^ 2)
        refine h.congr_deriv ?_
        simp
        ring) (by fun_prop)
    rw [show 8 / 3 * (7 * x ^ 2) = 7 * x ^ 2 * ((1 - -1) ^ 3 / 3) - 7 * x ^ 2 * ((1 - 1) ^ 3 / 3) by ring, ← h]
    refine intervalIntegral.integral_congr fun θ _ => ?_
    ring
  rw [← i1, ← i2]
  unfold angInt
  rw [← intervalIntegral.integral_sub ((ang_cont hx).intervalIntegrable _ _)
    (by apply Continuous.intervalIntegrable; fun_prop)]
  refine (intervalIntegral.abs_integral_le_integral_abs pi_pos.le).trans ?_
  refine intervalIntegral.integral_mono_on pi_pos.le ?_ (by apply Continuous.intervalIntegrable; fun_prop) fun θ hθ => ?_
  · apply Continuous.intervalIntegrable
    have := ang_cont hx
    fun_prop
  have hs := sin_nonneg_of_mem_Icc hθ
  unfold ang rat
  rw [← sub_mul, abs_mul, abs_of_nonneg hs]
  exact mul_le_mul_of_nonneg_right (ang_expand (mul_nonneg hx (cos_le θ).1) (sq_nonneg _) (sin_sq_le_one θ)) hs

/-- the high-energy limit of the reduced cross section -/
theorem high_limit : Tendsto (fun x : ℝ => x ^ (-2 : ℤ) * ((2 * x * (2 + x * (1 + x) * (8 + x))) / ((1 + 2 * x) ^ 2)
      + ((x - 2) * x - 2) * log (1 + 2 * x)) - log (2 * x)) atTop (𝓝 (1 / 2)) := by
  have hi : Tendsto (fun x : ℝ => x⁻¹) atTop (𝓝 0) := tendsto_inv_atTop_zero
  have h1 : Tendsto (fun x : ℝ => 2 * (2 * x⁻¹ ^ 3 + (x⁻¹ + 1) * (8 * x⁻¹ + 1)) / (x⁻¹ + 2) ^ 2) atTop
      (𝓝 (2 * (2 * 0 ^ 3 + (0 + 1) * (8 * 0 + 1)) / (0 + 2) ^ 2)) := by
    apply Tendsto.div
    · exact (((hi.pow 3).const_mul 2).add ((hi.add_const 1).mul ((hi.const_mul 8).add_const 1))).const_mul 2
    · exact (hi.add_const 2).pow 2
    · norm_num
  have h2 : Tendsto (fun x : ℝ => log (1 + x⁻¹ / 2)) atTop (𝓝 0) := by
    have hc : ContinuousAt (fun t : ℝ => log (1 + t / 2)) 0 := by
      apply ContinuousAt.log
      · fun_prop
      · norm_num
    have := hc.tendsto.comp hi
    simpa [Function.comp_def] using this
  have h3 : Tendsto (fun x : ℝ => log x / x) atTop (𝓝 0) := by
    have := isLittleO_log_id_atTop.tendsto_div_nhds_zero
    simpa using this
  have h4 : Tendsto (fun x : ℝ => (log 2 * x⁻¹ + log x / x + log (1 + x⁻¹ / 2) * x⁻¹) * (2 + 2 * x⁻¹)) atTop (𝓝 0) := by
    have := (((hi.const_mul (log 2)).add h3).add (h2.mul hi)).mul ((hi.const_mul 2).const_add 2)
    simpa using this
  have h := (h1.add h2).sub h4
  rw [show 2 * (2 * (0 : ℝ) ^ 3 + (0 + 1) * (8 * 0 + 1)) / (0 + 2) ^ 2 + 0 - 0 = 1 / 2 by norm_num] at h
  refine h.congr' ?_
  filter_upwards [eventually_gt_atTop 0] with x hx
  have l1 : log (2 * x) = log 2 + log x := log_mul two_ne_zero hx.ne'
  have l2 : log (1 + 2 * x) = log 2 + log x + log (1 + x⁻¹ / 2) := by
    rw [← l1, ← log_mul (by positivity) (by positivity)]
    congr 1
    field_simp
    ring
  rw [l1, l2]
  generalize log 2 = a
  generalize log x = b
  generalize log (1 + x⁻¹ / 2) = c
  have : x⁻¹ + 2 ≠ 0 := by positivity
  have : 1 + 2 * x ≠ 0 := by positivity
  rw [zpow_neg]
  field_simp
  ring

end Ries
