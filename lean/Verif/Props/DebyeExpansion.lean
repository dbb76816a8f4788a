import Verif.Lemmas.DebyeExpansion
import Verif.Props.Debye

/-! # Property C108: the effective temperature close to the zero-point and close to the classical limit -/

open MeasureTheory Set Filter Topology

namespace Ries

/-- C108: the excess over the zero-point value is positive and less than (pi^4/5) T^4 / T_D^3, at every temperature. -/
theorem C108_cold_bound {T TD : ℝ} (hT : 0 < T) (hD : 0 < TD) :
    ∃ Te, debyeTemperature T TD = .ok Te ∧ 3 / 8 * TD < Te ∧ Te < 3 / 8 * TD + Real.pi ^ 4 / 5 * (T ^ 4 / TD ^ 3) := by
  obtain ⟨h1, h2⟩ := bose_interval (div_pos hD hT)
  have hp : 0 < 3 * T ^ 4 / TD ^ 3 := by positivity
  refine ⟨_, debye_bose hT hD, ?_, ?_⟩
  · linarith [mul_pos hp h1]
  · have := mul_lt_mul_of_pos_left h2 hp
    have e : 3 * T ^ 4 / TD ^ 3 * (Real.pi ^ 4 / 15) = Real.pi ^ 4 / 5 * (T ^ 4 / TD ^ 3) := by ring
    linarith

example : (0 : ℝ) < 20 ∧ (0 : ℝ) < 1362 := by norm_num

/-- C108: the excess over the temperature is between two terms of the expansion in T_D / T. -/
theorem C108_hot_bound {T TD : ℝ} (hT : 0 < T) (hD : 0 < TD) :
    ∃ Te, debyeTemperature T TD = .ok Te ∧ T + TD ^ 2 / (20 * T) - TD ^ 4 / (1680 * T ^ 3) < Te ∧
      Te < T + TD ^ 2 / (20 * T) := by
  have hc : 0 < TD / T := div_pos hD hT
  obtain ⟨Te, h1, -, h2⟩ := C38_classical_bound hT hD
  refine ⟨Te, h1, ?_, h2⟩
  rw [debye_eq hT hD] at h1
  cases h1
  have : ∫ s in (0 : ℝ)..1, (s ^ 2 * (T / TD) + s ^ 4 * (TD / T / 12) + s ^ 6 * (-(TD / T) ^ 3 / 720)) <
      ∫ s in (0 : ℝ)..1, unitIntegrand (TD / T) s := by
    refine unit_lt (by fun_prop) (unitIntegrand_continuousOn hc) fun s hs _ => ?_
    have h := pade_lt_phi (mul_pos hs hc)
    calc _ = s ^ 3 * (1 / (s * (TD / T)) + s * (TD / T) / 12 - (s * (TD / T)) ^ 3 / 720) := by
          field_simp
          ring
      _ < _ := mul_lt_mul_of_pos_left h (by positivity)
  rw [intervalIntegral.integral_add (by apply Continuous.intervalIntegrable; fun_prop)
    (by apply Continuous.intervalIntegrable; fun_prop), intervalIntegral.integral_add
    (by apply Continuous.intervalIntegrable; fun_prop) (by apply Continuous.intervalIntegrable; fun_prop),
    intervalIntegral.integral_mul_const, intervalIntegral.integral_mul_const, intervalIntegral.integral_mul_const,
    integral_pow, integral_pow, integral_pow] at this
  norm_num at this
  calc _ = 3 * TD * (1 / 3 * (T / TD) + 1 / 5 * (TD / T / 12) + 1 / 7 * (-(TD / T) ^ 3 / 720)) := by
        field_simp
        ring
    _ < _ := mul_lt_mul_of_pos_left (by linarith) (by positivity)

example : (0 : ℝ) < 300 ∧ (0 : ℝ) < 105 := by norm_num

/-- C108: the leading terms of both excesses: pi^4 T^4 / (5 T_D^3) at low, T_D^2 / (20 T) at high temperatures. -/
theorem C108_leading_terms {TD : ℝ} (hD : 0 < TD) (f : ℝ → ℝ) (hf : ∀ T, 0 < T → debyeTemperature T TD = .ok (f T)) :
    Tendsto (fun T => (f T - 3 / 8 * TD) / T ^ 4) (𝓝[>] 0) (𝓝 (Real.pi ^ 4 / (5 * TD ^ 3))) ∧
      Tendsto (fun T => (f T - T) * T) atTop (𝓝 (TD ^ 2 / 20)) := by
  constructor
  · have hc : Tendsto (fun T : ℝ => TD / T) (𝓝[>] 0) atTop := by
      simpa [div_eq_mul_inv] using tendsto_inv_nhdsGT_zero.const_mul_atTop hD
    have h := (bose_tendsto.comp hc).const_mul (3 / TD ^ 3)
    rw [show 3 / TD ^ 3 * (Real.pi ^ 4 / 15) = Real.pi ^ 4 / (5 * TD ^ 3) by field_simp; norm_num] at h
    refine h.congr' ?_
    filter_upwards [self_mem_nhdsWithin] with T hT
    have hT : 0 < T := hT
    have e := hf T hT
    rw [debye_bose hT hD] at e
    rw [← Except.ok.inj e]
    simp only [Function.comp]
    field_simp
    ring
  · have h0 : Tendsto (fun T : ℝ => TD ^ 2 / 20 - TD ^ 4 / (1680 * T ^ 2)) atTop (𝓝 (TD ^ 2 / 20 - 0)) := by
      refine tendsto_const_nhds.sub (Tendsto.div_atTop tendsto_const_nhds ?_)
      exact (tendsto_pow_atTop two_ne_zero).const_mul_atTop (by norm_num)
    rw [sub_zero] at h0
    refine tendsto_of_tendsto_of_tendsto_of_le_of_le' h0 tendsto_const_nhds ?_ ?_
    all_goals
      filter_upwards [eventually_gt_atTop 0] with T hT
      obtain ⟨Te, h1, h2, h3⟩ := C108_hot_bound hT hD
      rw [hf T hT] at h1
      cases h1
    · have : TD ^ 2 / 20 - TD ^ 4 / (1680 * T ^ 2) = (TD ^ 2 / (20 * T) - TD ^ 4 / (1680 * T ^ 3)) * T := by
        field_simp
      rw [this]
      exact mul_le_mul_of_nonneg_right (by linarith) hT.le
    · have : TD ^ 2 / 20 = TD ^ 2 / (20 * T) * T := by field_simp
      rw [this]
      exact mul_le_mul_of_nonneg_right (by linarith) hT.le

example : ∃ f : ℝ → ℝ, ∀ T, 0 < T → debyeTemperature T 1362 = .ok (f T) :=
  ⟨_, fun _ hT => debye_eq hT (by norm_num)⟩

end Ries
