import Verif.Props.SelfAbsorptionBounds
import Verif.Props.Coverage
import Verif.Lemmas.Tails
import Verif.Lemmas.VoigtDeviation
import Mathlib.Analysis.SpecialFunctions.Trigonometric.DerivHyp
import Mathlib.Analysis.Real.Pi.Bounds

/-! # Helper lemmas for C196: edges of coverage intervals, self absorption of thick targets -/

open MeasureTheory Set Filter Topology

namespace Ries

/-! ## Tail of the normal distribution -/

theorem stdPdf_deriv (x : ℝ) : HasDerivAt (normPdf 0 1) (-x * normPdf 0 1 x) x := by
  have h := (gauss_deriv x).div_const (1 * Real.sqrt (2 * Real.pi))
  have e : (fun u : ℝ => Real.exp (-u ^ 2 / 2) / (1 * Real.sqrt (2 * Real.pi))) = normPdf 0 1 := by
    funext u
    simp [normPdf]
  rw [e] at h
  refine h.congr_deriv ?_
  simp only [normPdf, sub_zero, div_one]
  ring

/-- the probability above `x` is at most the density at `x` divided by `x` -/
theorem normTail_le {x : ℝ} (hx : 0 < x) : 1 - normCdf 0 1 x ≤ normPdf 0 1 x / x := by
  have hN := norm_good 0 one_pos
  have hd : ∀ y ∈ Ioi (0 : ℝ), HasDerivAt (fun y => normPdf 0 1 y / y + normCdf 0 1 y) (-(normPdf 0 1 y / y ^ 2)) y := by
    intro y hy
    have hy : (0 : ℝ) < y := hy
    refine (((stdPdf_deriv y).div (hasDerivAt_id y) hy.ne').add (hN.deriv y)).congr_deriv ?_
    simp only [id]
    field_simp
    ring
  have hanti : AntitoneOn (fun y => normPdf 0 1 y / y + normCdf 0 1 y) (Ioi 0) := by
    refine antitoneOn_of_deriv_nonpos (convex_Ioi 0) (fun y hy => (hd y hy).continuousAt.continuousWithinAt)
      (fun y hy => ?_) (fun y hy => ?_)
    · rw [interior_Ioi] at hy
      exact (hd y hy).differentiableAt.differentiableWithinAt
    · rw [interior_Ioi] at hy
      rw [(hd y hy).deriv, neg_nonpos]
      exact div_nonneg (normPdf_pos one_pos 0 y).le (sq_nonneg y)
  have hlim : Tendsto (fun y => normPdf 0 1 x / y + normCdf 0 1 y) atTop (𝓝 (0 + 1)) :=
    (tendsto_const_nhds.div_atTop tendsto_id).add hN.top
  have hle : 0 + 1 ≤ normPdf 0 1 x / x + normCdf 0 1 x := by
    have h1 : ∀ᶠ y in atTop, normCdf 0 1 y ≤ normPdf 0 1 x / x + normCdf 0 1 x := by
      filter_upwards [eventually_ge_atTop x] with y hy
      have := hanti (mem_Ioi.2 hx) (mem_Ioi.2 (hx.trans_le hy)) hy
      have h0 : 0 ≤ normPdf 0 1 y / y := div_nonneg (normPdf_pos one_pos 0 y).le (hx.trans_le hy).le
      simp only at this
      linarith
    have := le_of_tendsto hN.top h1
    linarith
  linarith

/-! ## The Voigt profile in the flanks of the normal distribution -/

theorem cosh_lower (y : ℝ) : 2 + y ^ 2 ≤ Real.exp y + Real.exp (-y) := by
  have h : (y / 2) ^ 2 ≤ Real.sinh (y / 2) ^ 2 := by
    rw [sq_le_sq, Real.abs_sinh]
    exact Real.self_le_sinh_iff.2 (abs_nonneg _)
  rw [Real.sinh_eq, div_pow, div_pow, sub_sq, ← Real.exp_nat_mul, ← Real.exp_nat_mul, mul_assoc, ← Real.exp_add] at h
  have e1 : ((2 : ℕ) : ℝ) * (y / 2) = y := by push_cast; ring
  have e2 : ((2 : ℕ) : ℝ) * -(y / 2) = -y := by push_cast; ring
  rw [e1, e2, add_neg_cancel, Real.exp_zero] at h
  linarith

theorem norm_flank (er : ℝ) {s X u : ℝ} (hs : 0 < s) (hX : 2 ≤ X ^ 2) (hu : u ^ 2 ≤ 1) :
    2 * normPdf er s (er + X * s) ≤ normPdf er s (er + X * s - s * u) + normPdf er s (er + X * s + s * u) := by
  have e : ∀ v, normPdf er s (er + X * s + s * v) = normPdf er s (er + X * s) * (Real.exp (-(X * v)) * Real.exp (-(v ^ 2 / 2))) := by
    intro v
    simp only [normPdf]
    rw [div_mul_eq_mul_div, ← Real.exp_add, ← Real.exp_add]
    congr 2
    have : (er + X * s + s * v - er) / s = X + v := by field_simp; ring
    rw [this, show (er + X * s - er) / s = X by field_simp; ring]
    ring
  have e1 : er + X * s - s * u = er + X * s + s * (-u) := by ring
  rw [e1, e, e, ← mul_add]
  have hp := normPdf_pos hs er (er + X * s)
  rw [mul_comm]
  refine mul_le_mul_of_nonneg_left ?_ hp.le
  have h1 := cosh_lower (X * u)
  have h2 := Real.add_one_le_exp (-(u ^ 2 / 2))
  rw [neg_sq, mul_neg, neg_neg, ← add_mul]
  have h3 : (0 : ℝ) ≤ -(u ^ 2 / 2) + 1 := by linarith
  calc (2 : ℝ) ≤ (2 + (X * u) ^ 2) * (-(u ^ 2 / 2) + 1) := by
        rw [mul_pow]
        nlinarith [mul_nonneg (sq_nonneg u) (sub_nonneg.2 hX), mul_nonneg (mul_nonneg (sq_nonneg u) (sq_nonneg X)) (sub_nonneg.2 hu), sq_nonneg u]
    _ ≤ (Real.exp (X * u) + Real.exp (-(X * u))) * Real.exp (-(u ^ 2 / 2)) :=
        mul_le_mul h1 h2 h3 (by positivity)

/-- In the flanks of the normal distribution the Voigt profile is nearly as large as the normal distribution, or larger. -/
theorem voigt_flank (er : ℝ) {s g X : ℝ} (hs : 0 < s) (hg : 0 < g) (hX : 2 ≤ X ^ 2) :
    (1 - 2 * (g / s) / Real.pi) * normPdf er s (er + X * s) ≤ voigtDensity er s g (er + X * s) := by
  rw [narrowVoigt_eq er _ s hg, narrowVoigt]
  have hC := cauchy_good 0 one_pos
  have hi := narrow_integrable er (er + X * s) g hs
  set f := fun t => cauchyPdf 0 1 t * normPdf er s (er + X * s - g * t) with hf
  have hcont : Continuous f := hC.cont.mul ((normPdf_continuous er s).comp (by fun_prop))
  have hK : 0 < s / g := div_pos hs hg
  have h1 : ∫ t in (-(s / g))..(s / g), f t ≤ ∫ t, f t := by
    rw [intervalIntegral.integral_of_le (by linarith)]
    exact setIntegral_le_integral hi (Eventually.of_forall fun t =>
      (mul_pos (cauchyPdf_pos one_pos 0 t) (normPdf_pos hs er _)).le)
  have h2 : ∫ t in (-(s / g))..(s / g), f (-t) = ∫ t in (-(s / g))..(s / g), f t := by
    rw [intervalIntegral.integral_comp_neg, neg_neg]
  have h3 : ∫ t in (-(s / g))..(s / g), cauchyPdf 0 1 t * (2 * normPdf er s (er + X * s)) ≤
      ∫ t in (-(s / g))..(s / g), (f t + f (-t)) := by
    refine intervalIntegral.integral_mono_on (by linarith) ((hC.cont.mul continuous_const).intervalIntegrable _ _)
      ((hcont.add (hcont.comp continuous_neg)).intervalIntegrable _ _) fun t ht => ?_
    have hsym : cauchyPdf 0 1 (-t) = cauchyPdf 0 1 t := by simp [cauchyPdf]
    simp only [hf, hsym]
    rw [← mul_add]
    refine mul_le_mul_of_nonneg_left ?_ (cauchyPdf_pos one_pos 0 t).le
    have hu : (g * t / s) ^ 2 ≤ 1 := by
      rw [sq_le_one_iff_abs_le_one, abs_div, abs_mul, abs_of_pos hs, abs_of_pos hg, div_le_one hs, mul_comm]
      exact (le_div_iff₀ hg).1 (abs_le.2 ht)
    have := norm_flank er hs hX hu
    rw [mul_div_cancel₀ _ hs.ne'] at this
    simpa only [mul_neg, sub_neg_eq_add] using this
  have hcn : Continuous fun t => f (-t) := hcont.comp continuous_neg
  rw [intervalIntegral.integral_add (hcont.intervalIntegrable _ _) (hcn.intervalIntegrable _ _), h2,
    intervalIntegral.integral_mul_const, hC.intervalIntegral] at h3
  have h4 := cauchy_window 0 one_pos hK
  rw [zero_add, zero_sub] at h4
  have e : 2 * 1 / (Real.pi * (s / g)) = 2 * (g / s) / Real.pi := by
    have := Real.pi_pos
    field_simp
  rw [e] at h4
  have hp := normPdf_pos hs er (er + X * s)
  nlinarith [mul_le_mul_of_nonneg_right h4 hp.le]

/-- Far outside, the Voigt profile of a broad level is nearly the one of the level at rest. -/
theorem voigt_far (er : ℝ) {s g L E : ℝ} (hs : 0 ≤ s) (hg : 0 < g) (hL : 20 * s ≤ L) (hE : er + L ≤ E) :
    coldVoigt er g E s ≤ (1 / (1 + ((L - 20 * s) / g) ^ 2) + Real.exp (-200)) / (Real.pi * g) := by
  have hN := norm_good 0 one_pos
  have hπ := Real.pi_pos
  have hi := coldVoigt_integrable er E s hg
  rw [coldVoigt]
  set M := 1 / (1 + ((L - 20 * s) / g) ^ 2) / (Real.pi * g) with hM
  have hM0 : 0 < M := by positivity
  have hpt : ∀ t, normPdf 0 1 t * cauchyPdf er g (E - s * t) ≤
      normPdf 0 1 t * M + (Set.indicator (Ioi 20) (normPdf 0 1) t) * (1 / (Real.pi * g)) := by
    intro t
    have hn := normPdf_pos one_pos 0 t
    by_cases ht : 20 < t
    · rw [Set.indicator_of_mem (mem_Ioi.2 ht)]
      have : cauchyPdf er g (E - s * t) ≤ 1 / (Real.pi * g) := by
        simp only [cauchyPdf]
        refine div_le_div_of_nonneg_left zero_le_one (by positivity) ?_
        nlinarith [mul_nonneg (mul_pos hπ hg).le (sq_nonneg ((E - s * t - er) / g))]
      nlinarith [mul_le_mul_of_nonneg_left this hn.le, mul_pos hn hM0]
    · rw [Set.indicator_of_notMem (by simpa using ht), zero_mul, add_zero]
      refine mul_le_mul_of_nonneg_left ?_ hn.le
      simp only [cauchyPdf, hM]
      rw [div_div]
      have hle : L - 20 * s ≤ E - s * t - er := by nlinarith [mul_le_mul_of_nonneg_left (not_lt.1 ht) hs]
      refine div_le_div_of_nonneg_left zero_le_one (by positivity) ?_
      rw [mul_comm]
      refine mul_le_mul_of_nonneg_left ?_ (by positivity)
      have : (L - 20 * s) / g ≤ (E - s * t - er) / g := div_le_div_of_nonneg_right hle hg.le
      have h0 : 0 ≤ (L - 20 * s) / g := div_nonneg (by linarith) hg.le
      nlinarith
  have i1 : Integrable fun t => normPdf 0 1 t * M := hN.integrable.mul_const _
  have i2 : Integrable fun t => Set.indicator (Ioi 20) (normPdf 0 1) t * (1 / (Real.pi * g)) :=
    (hN.integrable.indicator measurableSet_Ioi).mul_const _
  have h := integral_mono hi (i1.add i2) hpt
  simp only [Pi.add_apply] at h
  rw [integral_add i1 i2, integral_mul_const, integral_mul_const, hN.integral, one_mul, integral_indicator measurableSet_Ioi] at h
  have htail : ∫ t in Ioi (20 : ℝ), normPdf 0 1 t ≤ Real.exp (-200) := by
    have h1 : (∫ t in Iic (20 : ℝ), normPdf 0 1 t) + ∫ t in Ioi (20 : ℝ), normPdf 0 1 t = 1 := by
      rw [intervalIntegral.integral_Iic_add_Ioi hN.integrable.integrableOn hN.integrable.integrableOn, hN.integral]
    have h2 := norm_window 0 one_pos (show (0 : ℝ) ≤ 20 by norm_num)
    have h3 := hN.gt_zero (0 - 20)
    have e : -((20 : ℝ) / 1) ^ 2 / 2 = -200 := by norm_num
    rw [e, zero_add] at h2
    have h4 : normCdf 0 1 20 = ∫ t in Iic (20 : ℝ), normPdf 0 1 t := rfl
    linarith
  have h5 : (∫ t in Ioi (20 : ℝ), normPdf 0 1 t) * (1 / (Real.pi * g)) ≤ Real.exp (-200) * (1 / (Real.pi * g)) :=
    mul_le_mul_of_nonneg_right htail (by positivity)
  calc _ ≤ M + Real.exp (-200) * (1 / (Real.pi * g)) := by linarith
    _ = _ := by rw [hM]; ring

/-! ## Coverage intervals of narrow and of broad levels -/

theorem sqrt_two_bounds : (1.414 : ℝ) ≤ Real.sqrt 2 ∧ Real.sqrt 2 ≤ 1.4143 :=
  ⟨Real.le_sqrt_of_sq_le (by norm_num), Real.sqrt_le_iff.2 ⟨by norm_num, by norm_num⟩⟩

theorem sqrt_log_two_bounds : (0.832 : ℝ) ≤ Real.sqrt (Real.log 2) ∧ Real.sqrt (Real.log 2) ≤ 0.833 := by
  have h1 := Real.log_two_gt_d9
  have h2 := Real.log_two_lt_d9
  exact ⟨Real.le_sqrt_of_sq_le (by norm_num; linarith), Real.sqrt_le_iff.2 ⟨by norm_num, by norm_num; linarith⟩⟩

theorem sqrt_two_pi_bounds : (2.5065 : ℝ) ≤ Real.sqrt (2 * Real.pi) ∧ Real.sqrt (2 * Real.pi) ≤ 2.5067 := by
  have h1 := Real.pi_gt_d4
  have h2 := Real.pi_lt_d4
  exact ⟨Real.le_sqrt_of_sq_le (by norm_num at h1 ⊢; linarith), Real.sqrt_le_iff.2 ⟨by norm_num, by norm_num at h2 ⊢; linarith⟩⟩

/-- upper bound for the tail of the normal distribution beyond 3.503 -/
theorem stdTail_numeric : 1 - normCdf 0 1 3.503 ≤ 2.47e-4 := by
  refine (normTail_le (by norm_num)).trans ?_
  have hs := sqrt_two_pi_bounds.1
  have he : (461.7 : ℝ) ≤ Real.exp 6.1355 := by
    have e : (6.1355 : ℝ) = ((6 : ℕ) : ℝ) * 1 + 0.1355 := by norm_num
    rw [e, Real.exp_add, Real.exp_nat_mul]
    have h1 : (2.7182 : ℝ) ≤ Real.exp 1 := by linarith [Real.exp_one_gt_d9]
    have h2 : (1.1451 : ℝ) ≤ Real.exp 0.1355 := by
      have := Real.sum_le_exp_of_nonneg (show (0 : ℝ) ≤ 0.1355 by norm_num) 5
      norm_num [Finset.sum_range_succ, Nat.factorial] at this
      norm_num
      linarith
    have h3 : (2.7182 : ℝ) ^ 6 ≤ Real.exp 1 ^ 6 := pow_le_pow_left₀ (by norm_num) h1 6
    calc (461.7 : ℝ) ≤ 2.7182 ^ 6 * 1.1451 := by norm_num
      _ ≤ _ := mul_le_mul h3 h2 (by norm_num) (by positivity)
  have hx : Real.exp (-((3.503 - 0) / 1) ^ 2 / 2) ≤ 1 / 461.7 := by
    have : Real.exp (-((3.503 - 0) / 1) ^ 2 / 2) ≤ Real.exp (-6.1355) := Real.exp_le_exp.2 (by norm_num)
    refine this.trans ?_
    rw [Real.exp_neg, ← one_div]
    exact one_div_le_one_div_of_le (by norm_num) he
  rw [normPdf, div_div, div_le_iff₀ (by positivity)]
  refine hx.trans ?_
  nlinarith

/-- lower bound for the normal distribution at 3.515 standard deviations -/
theorem stdPdf_numeric (er : ℝ) {s : ℝ} (hs : 0 < s) : 8.27e-4 / s ≤ normPdf er s (er + 3.515 * s) := by
  have hs2 := sqrt_two_pi_bounds.2
  have hp : 0 < Real.sqrt (2 * Real.pi) := lt_of_lt_of_le (by norm_num) sqrt_two_pi_bounds.1
  have he : Real.exp 6.1777 ≤ 482 := by
    have e : (6.1777 : ℝ) = ((6 : ℕ) : ℝ) * 1 + 0.1777 := by norm_num
    rw [e, Real.exp_add, Real.exp_nat_mul]
    have h1 : Real.exp 1 ≤ (2.7183 : ℝ) := by linarith [Real.exp_one_lt_d9]
    have h2 : Real.exp 0.1777 ≤ (1.1945 : ℝ) := by
      have := Real.exp_bound' (show (0 : ℝ) ≤ 0.1777 by norm_num) (by norm_num) (n := 5) (by norm_num)
      norm_num [Finset.sum_range_succ, Nat.factorial] at this
      norm_num
      linarith
    have h3 : Real.exp 1 ^ 6 ≤ (2.7183 : ℝ) ^ 6 := pow_le_pow_left₀ (Real.exp_pos _).le h1 6
    calc _ ≤ (2.7183 : ℝ) ^ 6 * 1.1945 := mul_le_mul h3 h2 (Real.exp_pos _).le (by norm_num)
      _ ≤ 482 := by norm_num
  have hx : (1 : ℝ) / 482 ≤ Real.exp (-(3.515 : ℝ) ^ 2 / 2) := by
    have : Real.exp (-6.1777) ≤ Real.exp (-(3.515 : ℝ) ^ 2 / 2) := Real.exp_le_exp.2 (by norm_num)
    refine le_trans ?_ this
    rw [Real.exp_neg, ← one_div]
    exact one_div_le_one_div_of_le (Real.exp_pos _) he
  rw [normPdf, show (er + 3.515 * s - er) / s = 3.515 by field_simp; ring, mul_comm s, ← div_div]
  refine div_le_div_of_nonneg_right ?_ hs.le
  rw [le_div_iff₀ hp]
  refine le_trans ?_ hx
  nlinarith

/-- For a level whose width is 0.008 standard deviations of the thermal motion, the interval of 3.515 standard deviations contains more
than 0.999 of the pseudo-Voigt distribution. -/
theorem pv_narrow_edge (er : ℝ) {w d s : ℝ} (hs : 0 < s) (hd : d = s * Real.sqrt 2) (hw : w = 0.008 * s) :
    0.9995 ≤ (mkPV er w d).cdfR (er + 3.515 * s) := by
  have hok : PV.Ok w d := ⟨by rw [hw]; positivity, by rw [hd]; positivity, Or.inl (by rw [hw]; positivity)⟩
  obtain ⟨n0, n1⟩ := hok.eta_bounds (er := er)
  have hG := hok.gamma_pos (er := er)
  have hns := hok.normScale_pos (er := er)
  have hcs := hok.cauchyScale_pos (er := er)
  have hle : (mkPV er w d).bigGamma ≤ 2 * Real.sqrt (Real.log 2) * d + w := pvGamma_le_add hok.g0 hok.w0
  have hge : w ≤ (mkPV er w d).bigGamma := pvGamma_ge_right hok.g0 hok.w0
  obtain ⟨q1, -⟩ := sqrt_two_bounds
  obtain ⟨l1, -⟩ := sqrt_log_two_bounds
  have ens : (mkPV er w d).normScale = (mkPV er w d).bigGamma / (2 * Real.sqrt (Real.log 2)) / Real.sqrt 2 := rfl
  have ecs : (mkPV er w d).cauchyScale = 0.5 * (0.5 * (mkPV er w d).bigGamma) := rfl
  have eη : (mkPV er w d).eta = pvEta w (mkPV er w d).bigGamma := rfl
  -- the normal component
  have hns1 : (mkPV er w d).normScale ≤ 1.00341 * s := by
    rw [ens, div_div, div_le_iff₀ (by positivity)]
    refine hle.trans ?_
    rw [hd, hw]
    have : (2.3528 : ℝ) ≤ 2 * Real.sqrt (Real.log 2) * Real.sqrt 2 := by nlinarith
    nlinarith [mul_le_mul_of_nonneg_left this hs.le]
  have hz : (3.503 : ℝ) ≤ (er + 3.515 * s - er) / (mkPV er w d).normScale := by
    rw [le_div_iff₀ hns]
    nlinarith
  have hN : 1 - 2.47e-4 ≤ normCdf er (mkPV er w d).normScale (er + 3.515 * s) := by
    rw [normCdf_std_eq er hns]
    have := (norm_good 0 one_pos).strictMono.monotone hz
    linarith [stdTail_numeric]
  -- the Cauchy component
  have hL : 0 < 3.515 * s := by positivity
  have hC : 1 - (mkPV er w d).cauchyScale / (3.515 * s) / Real.pi ≤ cauchyCdf er (mkPV er w d).cauchyScale (er + 3.515 * s) := by
    rw [cauchyCdf_above er hcs hL]
    have := div_le_div_of_nonneg_right (arctan_le_self (div_pos hcs hL).le) Real.pi_pos.le
    linarith
  have hηG : (mkPV er w d).eta * (mkPV er w d).bigGamma ≤ 1.36603 * w := by
    rw [eη, pvEta_ratio]
    have hx0 : 0 ≤ w / (mkPV er w d).bigGamma := div_nonneg hok.w0 hG.le
    have hx1 : w / (mkPV er w d).bigGamma ≤ 1 := (div_le_one hG).2 hge
    have ex : w / (mkPV er w d).bigGamma * (mkPV er w d).bigGamma = w := div_mul_cancel₀ _ hG.ne'
    generalize w / (mkPV er w d).bigGamma = x at *
    have : 0 ≤ x ^ 2 * (0.47719 - 0.11116 * x) := mul_nonneg (sq_nonneg x) (by linarith)
    nlinarith [mul_nonneg this hG.le]
  have hηc : (mkPV er w d).eta * ((mkPV er w d).cauchyScale / (3.515 * s) / Real.pi) ≤ 2.48e-4 := by
    rw [← mul_div_assoc, ← mul_div_assoc, div_div, div_le_iff₀ (by positivity), ecs]
    have hπ := Real.pi_gt_d4
    norm_num at hπ
    have hηs : (mkPV er w d).eta * (mkPV er w d).bigGamma ≤ 1.36603 * (0.008 * s) := hηG.trans (by rw [hw])
    norm_num at hηs ⊢
    nlinarith [mul_le_mul_of_nonneg_left hπ.le hs.le]
  have e : (mkPV er w d).cdfR (er + 3.515 * s) = (1 - (mkPV er w d).eta) * normCdf er (mkPV er w d).normScale (er + 3.515 * s) +
    (mkPV er w d).eta * cauchyCdf er (mkPV er w d).cauchyScale (er + 3.515 * s) := rfl
  rw [e]
  have k1 := mul_le_mul_of_nonneg_left hN (sub_nonneg.2 n1)
  have k2 := mul_le_mul_of_nonneg_left hC n0
  rw [mul_sub, mul_one] at k2
  norm_num at k1 k2 hηc ⊢
  nlinarith

/-- For a level that is much broader than the thermal motion, the interval of 316 half widths contains less than 0.999 of the
pseudo-Voigt distribution. -/
theorem pv_broad_edge (er : ℝ) {d : ℝ} (hd : 0 ≤ d) (hd1 : d ≤ 1) : (mkPV er 10000 d).cdfR (er + 1580000) < 0.9995 - 1e-6 := by
  have hok : PV.Ok 10000 d := ⟨by norm_num, hd, Or.inl (by norm_num)⟩
  obtain ⟨n0, n1⟩ := hok.eta_bounds (er := er)
  have hG := hok.gamma_pos (er := er)
  have hns := hok.normScale_pos (er := er)
  have hcs := hok.cauchyScale_pos (er := er)
  have hle : (mkPV er 10000 d).bigGamma ≤ 2 * Real.sqrt (Real.log 2) * d + 10000 := pvGamma_le_add hok.g0 hok.w0
  have hge : (10000 : ℝ) ≤ (mkPV er 10000 d).bigGamma := pvGamma_ge_right hok.g0 hok.w0
  obtain ⟨-, l1⟩ := sqrt_log_two_bounds
  have l0 := Real.sqrt_nonneg (Real.log 2)
  have ecs : (mkPV er 10000 d).cauchyScale = 0.5 * (0.5 * (mkPV er 10000 d).bigGamma) := rfl
  have eη : (mkPV er 10000 d).eta = pvEta 10000 (mkPV er 10000 d).bigGamma := rfl
  have hG1 : (mkPV er 10000 d).bigGamma ≤ 10002 := by nlinarith
  have hη : 0.999 ≤ (mkPV er 10000 d).eta := by
    rw [eη, pvEta_ratio]
    have hx0 : 0.9997 ≤ 10000 / (mkPV er 10000 d).bigGamma := by
      rw [le_div_iff₀ hG]
      norm_num
      linarith
    have hx1 : 10000 / (mkPV er 10000 d).bigGamma ≤ 1 := (div_le_one hG).2 hge
    generalize 10000 / (mkPV er 10000 d).bigGamma = x at *
    have h2 : x ^ 2 ≤ 1 := by norm_num at hx0; nlinarith
    have h3 : 0.999 ≤ x ^ 3 := by
      calc (0.999 : ℝ) ≤ 0.9997 ^ 3 := by norm_num
        _ ≤ x ^ 3 := pow_le_pow_left₀ (by norm_num) hx0 3
    norm_num at hx0 h3 ⊢
    linarith only [hx0, h3, h2]
  have hz : (1 : ℝ) / 632 ≤ (mkPV er 10000 d).cauchyScale / 1580000 := by
    rw [ecs, le_div_iff₀ (by norm_num)]
    norm_num
    linarith
  have hat : (1.582e-3 : ℝ) ≤ Real.arctan ((mkPV er 10000 d).cauchyScale / 1580000) := by
    refine le_trans ?_ (Real.arctan_strictMono.monotone hz)
    have h1 := Real.sin_le (Real.arctan_nonneg.2 (show (0 : ℝ) ≤ 1 / 632 by norm_num))
    refine le_trans ?_ h1
    rw [Real.sin_arctan, le_div_iff₀ (by positivity)]
    have : Real.sqrt (1 + (1 / 632 : ℝ) ^ 2) ≤ 1.00001 := Real.sqrt_le_iff.2 ⟨by norm_num, by norm_num⟩
    norm_num at this ⊢
    linarith
  have e : (mkPV er 10000 d).cdfR (er + 1580000) = (1 - (mkPV er 10000 d).eta) * normCdf er (mkPV er 10000 d).normScale (er + 1580000) +
    (mkPV er 10000 d).eta * cauchyCdf er (mkPV er 10000 d).cauchyScale (er + 1580000) := rfl
  rw [e, cauchyCdf_above er hcs (by norm_num)]
  have hN := ((norm_good er hns).lt_one (er + 1580000)).le
  have hq : 5.03e-4 ≤ Real.arctan ((mkPV er 10000 d).cauchyScale / 1580000) / Real.pi := by
    rw [le_div_iff₀ Real.pi_pos]
    have := Real.pi_lt_d4
    norm_num at this hat ⊢
    linarith
  have k1 := mul_le_mul_of_nonneg_left hN (sub_nonneg.2 n1)
  have k2 : 0.999 * 5.03e-4 ≤ (mkPV er 10000 d).eta * (Real.arctan ((mkPV er 10000 d).cauchyScale / 1580000) / Real.pi) :=
    mul_le_mul hη hq (by norm_num) n0
  norm_num at k1 k2 ⊢
  linarith

/-! ## Thick targets -/

/-- If both targets are thick, the photons that pass the absorber and are absorbed in the scatterer are those with the smallest cross section:
a resonance whose smallest cross section between its limits is larger has the larger self absorption. -/
theorem thick_lt {r₁ r₂ : Reso} {σ₁ σ₂ : ℝ → ℝ} (h₁ : r₁.HasSigma σ₁) (h₂ : r₂.HasSigma σ₂) (c₁ : Continuous σ₁) (c₂ : Continuous σ₂)
    (p₁ : ∀ E, 0 < σ₁ E) (p₂ : ∀ E, 0 < σ₂ E) {a₁ b₁ a₂ b₂ x y m M : ℝ} (hab : a₁ < b₁) (hax : a₂ ≤ x) (hxy : x < y) (hyb : y ≤ b₂)
    (hm : ∀ E ∈ Icc a₁ b₁, m ≤ σ₁ E) (hM : ∀ E ∈ Icc x y, σ₂ E ≤ M) (hMm : M < m) :
    ∃ ρ₀ : ℝ, 0 < ρ₀ ∧ ∀ ρ, ρ₀ ≤ ρ → ∃ R₁ R₂, selfAbsorption r₁ ρ ρ (a₁ - r₁.er) (b₁ - r₁.er) = .ok R₁ ∧
      selfAbsorption r₂ ρ ρ (a₂ - r₂.er) (b₂ - r₂.er) = .ok R₂ ∧ R₂ < R₁ := by
  obtain ⟨μ, hμ0, hμ⟩ : ∃ μ, 0 < μ ∧ ∀ E ∈ Icc x y, μ ≤ σ₂ E := by
    obtain ⟨z, hz, hmin⟩ := isCompact_Icc.exists_isMinOn (nonempty_Icc.2 hxy.le) c₂.continuousOn
    exact ⟨σ₂ z, p₂ z, fun E hE => hmin hE⟩
  obtain ⟨Mx, hMx⟩ : ∃ Mx, ∀ E ∈ Icc a₁ b₁, σ₁ E ≤ Mx := by
    obtain ⟨z, hz, hmax⟩ := isCompact_Icc.exists_isMaxOn (nonempty_Icc.2 hab.le) c₁.continuousOn
    exact ⟨σ₁ z, fun E hE => hmax hE⟩
  have hlt : a₂ < b₂ := by linarith
  set κ := (y - x) / (2 * (b₂ - a₂)) with hκ
  have hκ0 : 0 < κ := div_pos (by linarith) (by linarith)
  -- thick enough
  refine ⟨max 1 (max (1 / μ) ((1 / κ) / (m - M))), lt_of_lt_of_le one_pos (le_max_left _ _), fun ρ hρ => ?_⟩
  have hρ1 : 0 < ρ := lt_of_lt_of_le one_pos ((le_max_left _ _).trans hρ)
  have hρμ : 1 ≤ μ * ρ := by
    have := ((le_max_left _ _).trans (le_max_right _ _)).trans hρ
    rw [div_le_iff₀ hμ0] at this
    linarith
  have hρκ : 1 / κ ≤ (m - M) * ρ := by
    have := ((le_max_right _ _).trans (le_max_right _ _)).trans hρ
    rw [div_le_iff₀ (by linarith)] at this
    linarith
  obtain ⟨R₁, e₁, l₁, -⟩ := C135_bounds h₁ c₁ p₁ hab hm hMx hρ1.le hρ1
  refine ⟨R₁, ?_⟩
  have hrel : ∀ e, r₂.rel e = σ₂ (e + r₂.er) := rel_eq h₂
  set num := ∫ e in (a₂ - r₂.er)..(b₂ - r₂.er), fluxDensity r₂ e ρ * (1 - Real.exp (-(r₂.rel e) * ρ)) with hnum
  set den := ∫ e in (a₂ - r₂.er)..(b₂ - r₂.er), (1 - Real.exp (-(r₂.rel e) * ρ)) with hden
  have cr : Continuous fun e => r₂.rel e := by
    simp only [hrel]
    exact c₂.comp (by fun_prop)
  have cden : Continuous fun e => 1 - Real.exp (-(r₂.rel e) * ρ) := by fun_prop
  have cnum : Continuous fun e => fluxDensity r₂ e ρ * (1 - Real.exp (-(r₂.rel e) * ρ)) := by
    unfold fluxDensity
    fun_prop
  have hpos : ∀ e, 0 < 1 - Real.exp (-(r₂.rel e) * ρ) := by
    intro e
    have h : -(r₂.rel e) * ρ < 0 := by
      rw [hrel]
      nlinarith [mul_pos (p₂ (e + r₂.er)) hρ1]
    have := Real.exp_lt_exp.2 h
    rw [Real.exp_zero] at this
    linarith
  have hden0 : 0 < den := intervalIntegral.intervalIntegral_pos_of_pos_on (cden.intervalIntegrable _ _) (fun e _ => hpos e) (by linarith)
  have hden1 : den ≤ b₂ - a₂ := by
    have : den ≤ ∫ e in (a₂ - r₂.er)..(b₂ - r₂.er), (1 : ℝ) :=
      intervalIntegral.integral_mono_on (by linarith) (cden.intervalIntegrable _ _) (continuous_const.intervalIntegrable _ _)
        fun e _ => by linarith [Real.exp_pos (-(r₂.rel e) * ρ)]
    rw [intervalIntegral.integral_const, smul_eq_mul, mul_one] at this
    linarith
  have hnum1 : (y - x) * (Real.exp (-M * ρ) / 2) ≤ num := by
    have i1 : ∫ e in (x - r₂.er)..(y - r₂.er), Real.exp (-M * ρ) / 2 ≤
        ∫ e in (x - r₂.er)..(y - r₂.er), fluxDensity r₂ e ρ * (1 - Real.exp (-(r₂.rel e) * ρ)) := by
      refine intervalIntegral.integral_mono_on (by linarith) (continuous_const.intervalIntegrable _ _) (cnum.intervalIntegrable _ _)
        fun e he => ?_
      have hmem : e + r₂.er ∈ Icc x y := ⟨by linarith [he.1], by linarith [he.2]⟩
      have k1 : Real.exp (-M * ρ) ≤ fluxDensity r₂ e ρ := by
        unfold fluxDensity
        rw [hrel]
        exact Real.exp_le_exp.2 (by nlinarith [hM _ hmem])
      have k2 : Real.exp (-(r₂.rel e) * ρ) ≤ 1 / 2 := by
        rw [hrel]
        have : Real.exp (-(σ₂ (e + r₂.er)) * ρ) ≤ Real.exp (-1) := Real.exp_le_exp.2 (by nlinarith [hμ _ hmem])
        refine this.trans ?_
        rw [Real.exp_neg, inv_le_comm₀ (Real.exp_pos _) (by norm_num)]
        linarith [Real.exp_one_gt_d9]
      nlinarith [Real.exp_pos (-M * ρ)]
    rw [intervalIntegral.integral_const, smul_eq_mul] at i1
    have i2 : ∫ e in (x - r₂.er)..(y - r₂.er), fluxDensity r₂ e ρ * (1 - Real.exp (-(r₂.rel e) * ρ)) ≤ num := by
      refine intervalIntegral.integral_mono_interval (by linarith) (by linarith) (by linarith) (Eventually.of_forall fun e => ?_)
        (cnum.intervalIntegrable _ _)
      exact mul_nonneg (Real.exp_pos _).le (hpos e).le
    linarith
  refine ⟨1 - num / den, e₁, ?_, ?_⟩
  · simp only [selfAbsorption, ← hnum, ← hden, if_neg hden0.ne']
  · refine lt_of_lt_of_le ?_ l₁
    have h3 : κ * Real.exp (-M * ρ) ≤ num / den := by
      rw [le_div_iff₀ hden0]
      have : κ * Real.exp (-M * ρ) * (b₂ - a₂) = (y - x) * (Real.exp (-M * ρ) / 2) := by
        rw [hκ]
        have : b₂ - a₂ ≠ 0 := by linarith
        field_simp
      nlinarith [mul_le_mul_of_nonneg_left hden1 (mul_pos hκ0 (Real.exp_pos (-M * ρ))).le]
    have h4 : Real.exp (-m * ρ) < κ * Real.exp (-M * ρ) := by
      have e : -m * ρ = -M * ρ + -((m - M) * ρ) := by ring
      rw [e, Real.exp_add, mul_comm]
      refine mul_lt_mul_of_pos_right ?_ (Real.exp_pos _)
      rw [Real.exp_neg, inv_lt_comm₀ (Real.exp_pos _) hκ0, ← one_div]
      linarith [Real.add_one_le_exp ((m - M) * ρ)]
    linarith

end Ries
