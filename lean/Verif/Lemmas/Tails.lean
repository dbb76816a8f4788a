import Verif.Lemmas.VoigtCdf

/-! # Tails of the distributions -/

open MeasureTheory Filter Topology Set

namespace Ries

theorem cauchyCdf_below (l : ℝ) {g L : ℝ} (hg : 0 < g) (hL : 0 < L) : cauchyCdf l g (l - L) = Real.arctan (g / L) / Real.pi := by
  have hpi := Real.pi_pos
  have h : Real.arctan (g / L) = Real.pi / 2 - Real.arctan (L / g) := by
    rw [← Real.arctan_inv_of_pos (div_pos hL hg), inv_div]
  rw [cauchyCdf, show (l - L - l) / g = -(L / g) by ring, Real.arctan_neg, h]
  field_simp
  ring

theorem cauchyCdf_above (l : ℝ) {g L : ℝ} (hg : 0 < g) (hL : 0 < L) : cauchyCdf l g (l + L) = 1 - Real.arctan (g / L) / Real.pi := by
  have := (cauchy_good l hg).add_of_symm l (cauchyPdf_symm l g) L
  rw [cauchyCdf_below l hg hL] at this
  linarith

theorem arctan_le_self {x : ℝ} (hx : 0 ≤ x) : Real.arctan x ≤ x := by
  have h0 : 0 ≤ Real.arctan x := Real.arctan_nonneg.2 hx
  have h1 := Real.arctan_lt_pi_div_two x
  have := Real.le_tan h0 h1
  rwa [Real.tan_arctan] at this

theorem cauchy_window (l : ℝ) {g L : ℝ} (hg : 0 < g) (hL : 0 < L) :
    1 - 2 * g / (Real.pi * L) ≤ cauchyCdf l g (l + L) - cauchyCdf l g (l - L) := by
  rw [cauchyCdf_below l hg hL, cauchyCdf_above l hg hL]
  have h := arctan_le_self (div_pos hg hL).le
  have : Real.arctan (g / L) / Real.pi ≤ g / (Real.pi * L) := by
    rw [div_le_iff₀ Real.pi_pos]
    refine h.trans (le_of_eq ?_)
    have := Real.pi_pos
    field_simp
  have e : 2 * g / (Real.pi * L) = 2 * (g / (Real.pi * L)) := by ring
  rw [e]
  linarith

theorem norm_below (l : ℝ) {s L : ℝ} (hs : 0 < s) (hL : 0 ≤ L) : normCdf l s (l - L) ≤ Real.exp (-(L / s) ^ 2 / 2) / 2 := by
  have hN := norm_good l hs
  have key : ∀ A ≤ l, normCdf l s (l - L) - normCdf l s (A - L) ≤ Real.exp (-(L / s) ^ 2 / 2) / 2 := by
    intro A hA
    rw [← hN.intervalIntegral, ← intervalIntegral.integral_comp_sub_right]
    have h1 : ∫ x in A..l, normPdf l s (x - L) ≤ ∫ x in A..l, Real.exp (-(L / s) ^ 2 / 2) * normPdf l s x := by
      refine intervalIntegral.integral_mono_on hA ?_ ?_ ?_
      · exact (hN.cont.comp (by fun_prop : Continuous fun x : ℝ => x - L)).intervalIntegrable _ _
      · exact (continuous_const.mul hN.cont).intervalIntegrable _ _
      · intro x hx
        unfold normPdf
        rw [← mul_div_assoc, ← Real.exp_add]
        refine div_le_div_of_nonneg_right (Real.exp_le_exp.2 ?_) (by positivity)
        have : 0 ≤ (l - x) / s * (L / s) := mul_nonneg (div_nonneg (by linarith [hx.2]) hs.le) (div_nonneg hL hs.le)
        have e : (x - L - l) / s = -((l - x) / s) - L / s := by ring
        have e' : (x - l) / s = -((l - x) / s) := by ring
        rw [e, e']
        nlinarith
    refine h1.trans ?_
    rw [intervalIntegral.integral_const_mul, hN.intervalIntegral, hN.half_of_symm l (normPdf_symm l s), div_eq_mul_one_div]
    exact mul_le_mul_of_nonneg_left (by linarith [hN.gt_zero A]) (Real.exp_pos _).le
  have ht : Tendsto (fun A => normCdf l s (l - L) - normCdf l s (A - L)) atBot (𝓝 (normCdf l s (l - L) - 0)) :=
    tendsto_const_nhds.sub (hN.bot.comp (tendsto_atBot_add_const_right _ (-L) tendsto_id))
  rw [sub_zero] at ht
  refine le_of_tendsto ht ?_
  filter_upwards [eventually_le_atBot l] with A hA using key A hA

theorem norm_window (l : ℝ) {s L : ℝ} (hs : 0 < s) (hL : 0 ≤ L) :
    1 - Real.exp (-(L / s) ^ 2 / 2) ≤ normCdf l s (l + L) - normCdf l s (l - L) := by
  have h1 := norm_below l hs hL
  have h2 := (norm_good l hs).add_of_symm l (normPdf_symm l s) L
  linarith

theorem voigt_window (er : ℝ) {s g L : ℝ} (hs : 0 < s) (hg : 0 < g) (hL : 0 < L) :
    1 - 4 * g / (Real.pi * L) - Real.exp (-(L / s) ^ 2 / 8) ≤ ∫ E in (er - L)..(er + L), voigtDensity er s g E := by
  rw [centralVoigt_eq er hs hg hL.le, centralVoigt]
  have hC := cauchy_good er hg
  have hN := norm_good 0 one_pos
  have hi := centralVoigt_integrable er s hg hL.le
  set u := 4 * g / (Real.pi * L) with hu
  have hu0 : 0 ≤ u := by have := Real.pi_pos; positivity
  have hT : 0 ≤ L / (2 * s) := by positivity
  have h1 : ∫ t in (-(L / (2 * s)))..(L / (2 * s)), normPdf 0 1 t * (cauchyCdf er g (er + L - s * t) - cauchyCdf er g (er - L - s * t)) ≤
      ∫ t, normPdf 0 1 t * (cauchyCdf er g (er + L - s * t) - cauchyCdf er g (er - L - s * t)) := by
    rw [intervalIntegral.integral_of_le (by linarith)]
    refine setIntegral_le_integral hi (Eventually.of_forall fun t => ?_)
    refine mul_nonneg (normPdf_pos one_pos 0 t).le (sub_nonneg.2 (hC.strictMono.monotone (by linarith)))
  have h2 : ∫ t in (-(L / (2 * s)))..(L / (2 * s)), normPdf 0 1 t * (1 - u) ≤
      ∫ t in (-(L / (2 * s)))..(L / (2 * s)), normPdf 0 1 t * (cauchyCdf er g (er + L - s * t) - cauchyCdf er g (er - L - s * t)) := by
    refine intervalIntegral.integral_mono_on (by linarith) ((hN.cont.mul continuous_const).intervalIntegrable _ _)
      hi.intervalIntegrable fun t ht => ?_
    refine mul_le_mul_of_nonneg_left ?_ (normPdf_pos one_pos 0 t).le
    have hb : |s * t| ≤ L / 2 := by
      rw [abs_mul, abs_of_pos hs]
      have : |t| ≤ L / (2 * s) := abs_le.2 ht
      calc s * |t| ≤ s * (L / (2 * s)) := mul_le_mul_of_nonneg_left this hs.le
        _ = L / 2 := by field_simp
    have hw := cauchy_window er hg (half_pos hL)
    have e : 2 * g / (Real.pi * (L / 2)) = u := by
      rw [hu]
      have := Real.pi_pos
      field_simp
      norm_num
    rw [e] at hw
    obtain ⟨hb1, hb2⟩ := abs_le.1 hb
    have m1 : cauchyCdf er g (er + L / 2) ≤ cauchyCdf er g (er + L - s * t) := hC.strictMono.monotone (by linarith)
    have m2 : cauchyCdf er g (er - L - s * t) ≤ cauchyCdf er g (er - L / 2) := hC.strictMono.monotone (by linarith)
    linarith
  rw [intervalIntegral.integral_mul_const, hN.intervalIntegral] at h2
  have h3 := norm_window 0 one_pos hT
  rw [zero_add, zero_sub, div_one, show -(L / (2 * s)) ^ 2 / 2 = -(L / s) ^ 2 / 8 by
    rw [div_pow, div_pow, mul_pow]; field_simp; norm_num] at h3
  have h4 : normCdf 0 1 (L / (2 * s)) - normCdf 0 1 (-(L / (2 * s))) ≤ 1 := by
    linarith [hN.gt_zero (-(L / (2 * s))), hN.lt_one (L / (2 * s))]
  have h5 := Real.exp_pos (-(L / s) ^ 2 / 8)
  refine le_trans ?_ (h2.trans h1)
  nlinarith [mul_nonneg hu0 (sub_nonneg.2 h4)]

theorem pv_window (er : ℝ) {w d L : ℝ} (hok : PV.Ok w d) (hL : 0 < L) :
    1 - 0.69 * w / (Real.pi * L) - Real.exp (-Real.log 2 * (2 * L / (2 * Real.sqrt (Real.log 2) * d + w)) ^ 2) ≤
      (mkPV er w d).cdfR (er + L) - (mkPV er w d).cdfR (er - L) := by
  have hpi := Real.pi_pos
  obtain ⟨e0, e1⟩ := hok.eta_bounds (er := er)
  have hG := hok.gamma_pos (er := er)
  have hle : (mkPV er w d).bigGamma ≤ 2 * Real.sqrt (Real.log 2) * d + w := pvGamma_le_add hok.g0 hok.w0
  have hnw := norm_window er (hok.normScale_pos (er := er)) hL.le
  have hcw := cauchy_window er (hok.cauchyScale_pos (er := er)) hL
  have hns : (mkPV er w d).normScale = (mkPV er w d).bigGamma / (2 * Real.sqrt (Real.log 2)) / Real.sqrt 2 := rfl
  have hcs : (mkPV er w d).cauchyScale = 0.5 * (0.5 * (mkPV er w d).bigGamma) := rfl
  have hexp : Real.exp (-(L / (mkPV er w d).normScale) ^ 2 / 2) ≤
      Real.exp (-Real.log 2 * (2 * L / (2 * Real.sqrt (Real.log 2) * d + w)) ^ 2) := by
    refine Real.exp_le_exp.2 ?_
    have hl2 := Real.log_pos one_lt_two
    have e : -(L / (mkPV er w d).normScale) ^ 2 / 2 = -Real.log 2 * (2 * L / (mkPV er w d).bigGamma) ^ 2 := by
      rw [hns]
      have s1 : Real.sqrt (Real.log 2) ^ 2 = Real.log 2 := Real.sq_sqrt hl2.le
      have s2 : Real.sqrt 2 ^ 2 = 2 := Real.sq_sqrt (by norm_num)
      have s3 := sqrt_log_two_pos
      have e2 : L / ((mkPV er w d).bigGamma / (2 * Real.sqrt (Real.log 2)) / Real.sqrt 2) =
          (2 * L / (mkPV er w d).bigGamma) * (Real.sqrt (Real.log 2) * Real.sqrt 2) := by
        field_simp
      rw [e2, mul_pow, mul_pow, s1, s2]
      ring
    rw [e]
    have : (2 * L / (2 * Real.sqrt (Real.log 2) * d + w)) ^ 2 ≤ (2 * L / (mkPV er w d).bigGamma) ^ 2 :=
      pow_le_pow_left₀ (div_nonneg (by linarith) (hG.le.trans hle)) (div_le_div_of_nonneg_left (by linarith) hG hle) 2
    nlinarith
  have heta : (mkPV er w d).eta * (2 * (mkPV er w d).cauchyScale / (Real.pi * L)) ≤ 0.69 * w / (Real.pi * L) := by
    rw [← mul_div_assoc]
    refine div_le_div_of_nonneg_right ?_ (by positivity)
    have : (mkPV er w d).eta = pvEta w (mkPV er w d).bigGamma := rfl
    rw [this, pvEta_ratio, hcs]
    have hwG : w ≤ (mkPV er w d).bigGamma := pvGamma_ge_right hok.g0 hok.w0
    have h1 : w / (mkPV er w d).bigGamma ≤ 1 := (div_le_one hG).2 hwG
    have h0 : 0 ≤ w / (mkPV er w d).bigGamma := div_nonneg hok.w0 hG.le
    have hm : w / (mkPV er w d).bigGamma * (mkPV er w d).bigGamma = w := div_mul_cancel₀ _ hG.ne'
    have hx : 1.36603 * (w / (mkPV er w d).bigGamma) - 0.47719 * (w / (mkPV er w d).bigGamma) ^ 2 +
        0.11116 * (w / (mkPV er w d).bigGamma) ^ 3 ≤ 1.36603 * (w / (mkPV er w d).bigGamma) := by
      generalize w / (mkPV er w d).bigGamma = x at *
      nlinarith [mul_nonneg (mul_nonneg h0 h0) (sub_nonneg.2 h1), mul_nonneg h0 h0]
    calc _ ≤ 1.36603 * (w / (mkPV er w d).bigGamma) * (2 * (0.5 * (0.5 * (mkPV er w d).bigGamma))) :=
          mul_le_mul_of_nonneg_right hx (by linarith)
      _ = 0.683015 * (w / (mkPV er w d).bigGamma * (mkPV er w d).bigGamma) := by ring
      _ ≤ 0.69 * w := by rw [hm]; linarith [hok.w0]
  have her : (mkPV er w d).er = er := rfl
  simp only [PV.cdfR, her]
  generalize Real.exp (-Real.log 2 * (2 * L / (2 * Real.sqrt (Real.log 2) * d + w)) ^ 2) = X at *
  generalize hY : Real.exp (-(L / (mkPV er w d).normScale) ^ 2 / 2) = Y at *
  have hY0 : 0 < Y := hY ▸ Real.exp_pos _
  generalize 0.69 * w / (Real.pi * L) = U at *
  generalize 2 * (mkPV er w d).cauchyScale / (Real.pi * L) = V at *
  generalize (mkPV er w d).eta = η at *
  have a1 := mul_le_mul_of_nonneg_left hnw (sub_nonneg.2 e1)
  have a2 := mul_le_mul_of_nonneg_left hcw e0
  nlinarith [mul_nonneg e0 hY0.le]

end Ries
