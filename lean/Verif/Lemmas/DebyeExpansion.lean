import Verif.Lemmas.Debye
import Mathlib.NumberTheory.ZetaValues
import Mathlib.MeasureTheory.Integral.DominatedConvergence
import Mathlib.MeasureTheory.Integral.IntegralEqImproper
import Mathlib.Analysis.SpecialFunctions.Gaussian.GaussianIntegral

/-! # The Bose integral and an expansion of the Debye integrand -/

open MeasureTheory Set Filter Topology

namespace Ries

/-- the part of the integrand without the zero-point motion -/
noncomputable def bose (t : ℝ) : ℝ := t ^ 3 * (1 / (Real.exp t - 1))

theorem bose_eq (t : ℝ) : debyeIntegrand t = bose t + t ^ 3 * 0.5 := by
  unfold debyeIntegrand bose
  ring

theorem bose_pos {t : ℝ} (ht : 0 < t) : 0 < bose t :=
  mul_pos (by positivity) (one_div_pos.2 (exp_sub_one_pos ht))

theorem bose_continuousOn : ContinuousOn bose (Ici 0) := by
  have h : bose = fun t => debyeIntegrand t - t ^ 3 * 0.5 := by
    funext t
    rw [bose_eq]
    ring
  rw [h]
  exact debyeIntegrand_continuousOn.sub (by fun_prop)

/-- geometric series -/
theorem bose_hasSum {t : ℝ} (ht : 0 < t) :
    HasSum (fun n : ℕ => t ^ 3 * Real.exp (-((n + 1 : ℕ) * t))) (bose t) := by
  have h1 : Real.exp (-t) < 1 := by rw [Real.exp_lt_one_iff]; linarith
  have h := ((hasSum_geometric_of_lt_one (Real.exp_pos (-t)).le h1).mul_left (t ^ 3 * Real.exp (-t)))
  have he : t ^ 3 * Real.exp (-t) * (1 - Real.exp (-t))⁻¹ = bose t := by
    unfold bose
    have h2 := exp_sub_one_pos ht
    rw [Real.exp_neg] at h1 ⊢
    have h3 := Real.exp_pos t
    have h4 : 1 - (Real.exp t)⁻¹ ≠ 0 := by linarith
    field_simp
  rw [he] at h
  refine h.congr_fun fun n => ?_
  rw [← Real.exp_nat_mul, mul_assoc, ← Real.exp_add]
  push_cast
  ring_nf

theorem term_integrable {r : ℝ} (hr : 0 < r) : IntegrableOn (fun t : ℝ => t ^ 3 * Real.exp (-(r * t))) (Ioi 0) := by
  have h := integrableOn_rpow_mul_exp_neg_mul_rpow (s := 3) (p := 1) (b := r) (by norm_num) one_pos hr
  refine h.congr_fun (fun t ht => ?_) measurableSet_Ioi
  simp only [Real.rpow_one]
  rw [show (3 : ℝ) = ((3 : ℕ) : ℝ) by norm_num, Real.rpow_natCast]
  ring_nf

theorem term_integral {r : ℝ} (hr : 0 < r) : ∫ t in Ioi (0 : ℝ), t ^ 3 * Real.exp (-(r * t)) = 6 * (1 / r ^ 4) := by
  have h := Real.integral_rpow_mul_exp_neg_mul_Ioi (a := 4) (r := r) (by norm_num) hr
  have hg : Real.Gamma 4 = 6 := by
    have := Real.Gamma_nat_eq_factorial 3
    rw [show (((3 : ℕ) : ℝ) + 1) = 4 by norm_num] at this
    rw [this]
    norm_num [Nat.factorial]
  rw [hg] at h
  have h4 : (1 / r) ^ (4 : ℝ) = 1 / r ^ 4 := by
    rw [show (4 : ℝ) = ((4 : ℕ) : ℝ) by norm_num, Real.rpow_natCast]
    ring
  rw [h4] at h
  rw [mul_comm, ← h]
  refine setIntegral_congr_fun measurableSet_Ioi fun t _ => ?_
  rw [show (4 : ℝ) - 1 = ((3 : ℕ) : ℝ) by norm_num, Real.rpow_natCast]

theorem zeta_four_succ : HasSum (fun n : ℕ => 6 * (1 / ((n + 1 : ℕ) : ℝ) ^ 4)) (Real.pi ^ 4 / 15) := by
  have h := hasSum_zeta_four
  rw [← hasSum_nat_add_iff' 1] at h
  have h6 := h.mul_left 6
  convert! h6 using 1
  simp
  ring

theorem bose_series : HasSum (fun n : ℕ => ∫ t in Ioi (0 : ℝ), t ^ 3 * Real.exp (-((n + 1 : ℕ) * t)))
    (∫ t in Ioi (0 : ℝ), ∑' n : ℕ, t ^ 3 * Real.exp (-((n + 1 : ℕ) * t))) := by
  refine hasSum_integral_of_summable_integral_norm (fun n => term_integrable (by positivity)) ?_
  have h : ∀ n : ℕ, ∫ t in Ioi (0 : ℝ), ‖t ^ 3 * Real.exp (-((n + 1 : ℕ) * t))‖ = 6 * (1 / ((n + 1 : ℕ) : ℝ) ^ 4) := by
    intro n
    rw [← term_integral (r := ((n + 1 : ℕ) : ℝ)) (by positivity)]
    refine setIntegral_congr_fun measurableSet_Ioi fun t ht => ?_
    have : (0 : ℝ) < t := ht
    exact Real.norm_of_nonneg (by positivity)
  simp only [h]
  exact zeta_four_succ.summable

theorem bose_integral : ∫ t in Ioi (0 : ℝ), bose t = Real.pi ^ 4 / 15 := by
  have h1 : ∫ t in Ioi (0 : ℝ), bose t = ∫ t in Ioi (0 : ℝ), ∑' n : ℕ, t ^ 3 * Real.exp (-((n + 1 : ℕ) * t)) :=
    setIntegral_congr_fun measurableSet_Ioi fun t ht => (bose_hasSum ht).tsum_eq.symm
  have h2 := bose_series
  have h3 : (fun n : ℕ => ∫ t in Ioi (0 : ℝ), t ^ 3 * Real.exp (-((n + 1 : ℕ) * t))) =
      fun n : ℕ => 6 * (1 / ((n + 1 : ℕ) : ℝ) ^ 4) := by
    funext n
    exact term_integral (by positivity)
  rw [h3] at h2
  rw [h1]
  exact h2.unique zeta_four_succ

theorem bose_integrable : IntegrableOn bose (Ioi 0) := by
  by_contra h
  have := integral_undef h
  rw [bose_integral] at this
  have := Real.pi_pos
  have : 0 < Real.pi ^ 4 / 15 := by positivity
  linarith

theorem bose_interval {c : ℝ} (hc : 0 < c) : 0 < ∫ t in (0 : ℝ)..c, bose t ∧ ∫ t in (0 : ℝ)..c, bose t < Real.pi ^ 4 / 15 := by
  have hi : ∀ {a b : ℝ}, 0 ≤ a → a < b → 0 < ∫ t in a..b, bose t := by
    intro a b ha hab
    refine intervalIntegral.intervalIntegral_pos_of_pos_on ?_ (fun t ht => bose_pos (ha.trans_lt ht.1)) hab
    refine (bose_continuousOn.mono ?_).intervalIntegrable
    rw [uIcc_of_le hab.le]
    exact fun t ht => ha.trans ht.1
  refine ⟨hi le_rfl hc, ?_⟩
  have h1 : ∫ t in (0 : ℝ)..(c + 1), bose t ≤ Real.pi ^ 4 / 15 := by
    rw [← bose_integral, intervalIntegral.integral_of_le (by linarith)]
    refine setIntegral_mono_set bose_integrable ?_ (Ioc_subset_Ioi_self).eventuallyLE
    filter_upwards [ae_restrict_mem measurableSet_Ioi] with t ht
    exact (bose_pos ht).le
  have h2 := hi hc.le (lt_add_one c)
  have h3 : (∫ t in (0 : ℝ)..c, bose t) + ∫ t in c..(c + 1), bose t = ∫ t in (0 : ℝ)..(c + 1), bose t := by
    apply intervalIntegral.integral_add_adjacent_intervals
    · refine (bose_continuousOn.mono ?_).intervalIntegrable
      rw [uIcc_of_le hc.le]
      exact fun t ht => ht.1
    · refine (bose_continuousOn.mono ?_).intervalIntegrable
      rw [uIcc_of_le (by linarith)]
      exact fun t ht => hc.le.trans ht.1
  linarith

theorem bose_tendsto : Tendsto (fun c => ∫ t in (0 : ℝ)..c, bose t) atTop (𝓝 (Real.pi ^ 4 / 15)) := by
  rw [← bose_integral]
  exact intervalIntegral_tendsto_integral_Ioi 0 bose_integrable tendsto_id

/-- the effective temperature and the Bose integral -/
theorem debye_bose {T TD : ℝ} (hT : 0 < T) (hD : 0 < TD) :
    debyeTemperature T TD = .ok (3 / 8 * TD + 3 * T ^ 4 / TD ^ 3 * ∫ t in (0 : ℝ)..(TD / T), bose t) := by
  unfold debyeTemperature
  rw [if_neg hD.ne', if_neg hT.ne']
  have hc : 0 < TD / T := div_pos hD hT
  have h : ∫ t in (0 : ℝ)..(TD / T), debyeIntegrand t = (∫ t in (0 : ℝ)..(TD / T), bose t) + (TD / T) ^ 4 / 8 := by
    rw [funext bose_eq, intervalIntegral.integral_add, intervalIntegral.integral_mul_const, integral_pow]
    · norm_num
      ring
    · refine (bose_continuousOn.mono ?_).intervalIntegrable
      rw [uIcc_of_le hc.le]
      exact fun t ht => ht.1
    · apply Continuous.intervalIntegrable
      fun_prop
  rw [h]
  congr 1
  field_simp
  ring

/-- the third term of the expansion at small arguments -/
theorem pade_lt_phi {x : ℝ} (hx : 0 < x) : 1 / x + x / 12 - x ^ 3 / 720 < phi x := by
  have d4 : ∀ x : ℝ, 0 < x → 0 < -24 + (24 - 24 * x + 12 * x ^ 2 + 16 * x ^ 3 + x ^ 4) * Real.exp x := by
    intro x hx
    refine nonneg_of_deriv (f := fun x => -24 + (24 - 24 * x + 12 * x ^ 2 + 16 * x ^ 3 + x ^ 4) * Real.exp x)
      (f' := fun x => (60 * x ^ 2 + 20 * x ^ 3 + x ^ 4) * Real.exp x) ?_ (by simp) (fun y hy => by positivity) hx
    intro x
    have := ((((((hasDerivAt_id x).const_mul 24).const_sub 24).add ((hasDerivAt_pow 2 x).const_mul 12)).add
      ((hasDerivAt_pow 3 x).const_mul 16)).add (hasDerivAt_pow 4 x)).mul (Real.hasDerivAt_exp x)
    refine (this.const_add (-24)).congr_deriv ?_
    simp
    ring
  have d3 : ∀ x : ℝ, 0 < x → 0 < -24 * x + (24 * x - 24 * x ^ 2 + 12 * x ^ 3 + x ^ 4) * Real.exp x := by
    intro x hx
    refine nonneg_of_deriv (f := fun x => -24 * x + (24 * x - 24 * x ^ 2 + 12 * x ^ 3 + x ^ 4) * Real.exp x)
      (f' := fun x => -24 + (24 - 24 * x + 12 * x ^ 2 + 16 * x ^ 3 + x ^ 4) * Real.exp x) ?_ (by simp) (fun y hy => d4 y hy) hx
    intro x
    have := (((((hasDerivAt_id x).const_mul 24).sub ((hasDerivAt_pow 2 x).const_mul 24)).add
      ((hasDerivAt_pow 3 x).const_mul 12)).add (hasDerivAt_pow 4 x)).mul (Real.hasDerivAt_exp x)
    refine (((hasDerivAt_id x).const_mul (-24)).add this).congr_deriv ?_
    simp
    ring
  have d2 : ∀ x : ℝ, 0 < x → 0 < 120 - 12 * x ^ 2 + (-120 + 120 * x - 48 * x ^ 2 + 8 * x ^ 3 + x ^ 4) * Real.exp x := by
    intro x hx
    refine nonneg_of_deriv (f := fun x => 120 - 12 * x ^ 2 + (-120 + 120 * x - 48 * x ^ 2 + 8 * x ^ 3 + x ^ 4) * Real.exp x)
      (f' := fun x => -24 * x + (24 * x - 24 * x ^ 2 + 12 * x ^ 3 + x ^ 4) * Real.exp x) ?_ (by simp) (fun y hy => d3 y hy) hx
    intro x
    have := (((((hasDerivAt_id x).const_mul 120).sub ((hasDerivAt_pow 2 x).const_mul 48)).add
      ((hasDerivAt_pow 3 x).const_mul 8)).add (hasDerivAt_pow 4 x)).const_add (-120) |>.mul (Real.hasDerivAt_exp x)
    have h2 := ((((hasDerivAt_pow 2 x).const_mul 12).const_sub 120).add this)
    refine (h2.congr_of_eventuallyEq (.of_forall fun y => ?_)).congr_deriv ?_
    · simp
      ring
    · simp
      ring
  have d1 : ∀ x : ℝ, 0 < x → 0 < 360 + 120 * x - 4 * x ^ 3 + (-360 + 240 * x - 60 * x ^ 2 + 4 * x ^ 3 + x ^ 4) * Real.exp x := by
    intro x hx
    refine nonneg_of_deriv (f := fun x => 360 + 120 * x - 4 * x ^ 3 + (-360 + 240 * x - 60 * x ^ 2 + 4 * x ^ 3 + x ^ 4) * Real.exp x)
      (f' := fun x => 120 - 12 * x ^ 2 + (-120 + 120 * x - 48 * x ^ 2 + 8 * x ^ 3 + x ^ 4) * Real.exp x) ?_ (by simp)
      (fun y hy => d2 y hy) hx
    intro x
    have := (((((hasDerivAt_id x).const_mul 240).sub ((hasDerivAt_pow 2 x).const_mul 60)).add
      ((hasDerivAt_pow 3 x).const_mul 4)).add (hasDerivAt_pow 4 x)).const_add (-360) |>.mul (Real.hasDerivAt_exp x)
    have h2 := (((((hasDerivAt_id x).const_mul 120).const_add 360).sub ((hasDerivAt_pow 3 x).const_mul 4)).add this)
    refine (h2.congr_of_eventuallyEq (.of_forall fun y => ?_)).congr_deriv ?_
    · simp
      ring
    · simp
      ring
  have d0 : 0 < 720 * x - (720 - 360 * x + 60 * x ^ 2 - x ^ 4) * (Real.exp x - 1) := by
    refine nonneg_of_deriv (f := fun x => 720 * x - (720 - 360 * x + 60 * x ^ 2 - x ^ 4) * (Real.exp x - 1))
      (f' := fun x => 360 + 120 * x - 4 * x ^ 3 + (-360 + 240 * x - 60 * x ^ 2 + 4 * x ^ 3 + x ^ 4) * Real.exp x) ?_ (by simp)
      (fun y hy => d1 y hy) hx
    intro x
    have := (((((hasDerivAt_id x).const_mul 360).const_sub 720).add ((hasDerivAt_pow 2 x).const_mul 60)).sub
      (hasDerivAt_pow 4 x)).mul ((Real.hasDerivAt_exp x).sub_const 1)
    refine (((hasDerivAt_id x).const_mul 720).sub this).congr_deriv ?_
    simp
    ring
  have he := exp_sub_one_pos hx
  have h : 1 / x + x / 12 - x ^ 3 / 720 - 0.5 < 1 / (Real.exp x - 1) := by
    rw [lt_div_iff₀ he]
    have e : 1 / x + x / 12 - x ^ 3 / 720 - 0.5 = (720 - 360 * x + 60 * x ^ 2 - x ^ 4) / (720 * x) := by
      field_simp
      ring
    rw [e, div_mul_eq_mul_div, div_lt_one (by positivity)]
    linarith
  unfold phi
  linarith

end Ries
