import Verif.Lemmas.Shapes
import Verif.Spec.Examples
import Mathlib.Analysis.Convolution

/-! # Properties C19, C35: the Voigt shape -/

open MeasureTheory

namespace Ries

theorem exVoigt (T : ℝ) : ∃ r, mkVoigt exConst exGround exExcited 11 T none = .ok r ∧ r.er = 2 := by
  obtain ⟨r, h, he⟩ := exResonance
  refine ⟨{ r with dist := (mkPV r.er 4 (dopplerWidth exConst 11 T r.er)).toSemiDist, params := [] }, ?_, he⟩
  simp [mkVoigt, mkPseudoVoigt, h, exExcited_width, getDopplerWidth_ok exConst (show (11 : ℝ) ≠ 0 by norm_num), bind, Except.bind]

theorem exIsVoigt : ∃ r, IsVoigt r := by
  obtain ⟨r, h, -⟩ := exVoigt 293
  exact ⟨r, _, _, _, 11, 293, _, 4, h, by norm_num, by norm_num,
    by norm_num [exGround, exExcited, groundState, state], exExcited_width, by norm_num, Or.inl (by norm_num)⟩

theorem cauchyPdf_shift (l s x : ℝ) : cauchyPdf 0 s (x - l) = cauchyPdf l s x := by
  simp [cauchyPdf]

theorem normPdf_shift (l s x : ℝ) : normPdf 0 s (x - l) = normPdf l s x := by
  simp [normPdf]

/-- density of the Doppler-broadened line with normal scale `s` and Lorentz half width `g` around `er` -/
noncomputable def voigtDensity (er s g E : ℝ) : ℝ := ∫ t, normPdf 0 s t * cauchyPdf er g (E - t)

theorem voigtDensity_eq_convolution (er s g : ℝ) :
    voigtDensity er s g = convolution (normPdf 0 s) (cauchyPdf er g) (ContinuousLinearMap.mul ℝ ℝ) volume := by
  funext E
  rfl

theorem voigt_integrable (er : ℝ) {s g : ℝ} (hs : 0 < s) (hg : 0 < g) : Integrable (voigtDensity er s g) := by
  rw [voigtDensity_eq_convolution]
  exact (norm_good 0 hs).integrable.integrable_convolution _ (cauchy_good er hg).integrable

theorem voigt_integral (er : ℝ) {s g : ℝ} (hs : 0 < s) (hg : 0 < g) : ∫ E, voigtDensity er s g E = 1 := by
  rw [voigtDensity_eq_convolution, integral_convolution _ (norm_good 0 hs).integrable (cauchy_good er hg).integrable]
  simp [(norm_good 0 hs).integral, (cauchy_good er hg).integral]

theorem voigt_symm (er s g d : ℝ) : voigtDensity er s g (er + d) = voigtDensity er s g (er - d) := by
  unfold voigtDensity
  rw [← integral_neg_eq_self]
  congr 1
  funext t
  have h1 : normPdf 0 s (-t) = normPdf 0 s t := by simp [normPdf, neg_div]
  have h2 : cauchyPdf er g (er + d - -t) = cauchyPdf er g (er - d - t) := by
    have := cauchyPdf_symm er g (d + t)
    have e1 : er + d - -t = er + (d + t) := by ring
    have e2 : er - d - t = er - (d + t) := by ring
    rw [e1, e2, this]
  rw [h1, h2]

theorem voigt_prod_integrable (er : ℝ) {s g : ℝ} (hs : 0 < s) (hg : 0 < g) (E : ℝ) :
    Integrable fun t => normPdf 0 s t * cauchyPdf er g (E - t) := by
  refine (norm_good 0 hs).integrable.mul_bdd (c := cauchyPdf er g er) ?_ ?_
  · have : Continuous (cauchyPdf er g) := (cauchy_good er hg).cont
    exact (this.comp (continuous_const.sub continuous_id)).aestronglyMeasurable
  · refine Filter.Eventually.of_forall fun t => ?_
    rw [Real.norm_of_nonneg (cauchyPdf_pos hg _ _).le]
    exact (cauchy_peaked er hg).le_peak _

theorem voigt_pos (er : ℝ) {s g : ℝ} (hs : 0 < s) (hg : 0 < g) (E : ℝ) : 0 < voigtDensity er s g E := by
  unfold voigtDensity
  have hpos : ∀ t, 0 < normPdf 0 s t * cauchyPdf er g (E - t) := fun t => mul_pos (normPdf_pos hs _ _) (cauchyPdf_pos hg _ _)
  rw [integral_pos_iff_support_of_nonneg (fun t => (hpos t).le) (voigt_prod_integrable er hs hg E)]
  have : Function.support (fun t => normPdf 0 s t * cauchyPdf er g (E - t)) = Set.univ := by
    ext t; simpa using mul_ne_zero_iff.1 (hpos t).ne'
  rw [this]; simp

/-- The Voigt line decreases on the right of its centre: reflection about the midpoint of the two energies. -/
theorem voigt_anti (er : ℝ) {s g : ℝ} (hs : 0 < s) (hg : 0 < g) {d e : ℝ} (hd : 0 ≤ d) (hde : d < e) :
    voigtDensity er s g (er + e) < voigtDensity er s g (er + d) := by
  have hn := norm_peaked 0 hs
  have hc := cauchy_peaked er hg
  set h : ℝ → ℝ := fun t => cauchyPdf er g (er + d - t) - cauchyPdf er g (er + e - t) with hh
  have hanti : ∀ t, h (d + e - t) = -h t := by
    intro t
    simp only [hh]
    have e1 : er + d - (d + e - t) = er - (e - t) := by ring
    have e2 : er + e - (d + e - t) = er - (d - t) := by ring
    have e3 : er + e - t = er + (e - t) := by ring
    have e4 : er + d - t = er + (d - t) := by ring
    rw [e1, e2, e3, e4, ← hc.symm, ← hc.symm]; ring
  have i1 : Integrable fun t => normPdf 0 s t * h t := by
    have := (voigt_prod_integrable er hs hg (er + d)).sub (voigt_prod_integrable er hs hg (er + e))
    refine this.congr (Filter.Eventually.of_forall fun t => ?_)
    simp [hh, mul_sub]
  have hV : voigtDensity er s g (er + d) - voigtDensity er s g (er + e) = ∫ t, normPdf 0 s t * h t := by
    unfold voigtDensity
    rw [← integral_sub (voigt_prod_integrable er hs hg _) (voigt_prod_integrable er hs hg _)]
    congr 1; funext t; simp only [hh]; ring
  have i2 : Integrable fun t => normPdf 0 s (d + e - t) * h t := by
    have := (i1.comp_sub_left (d + e)).neg
    refine this.congr (Filter.Eventually.of_forall fun t => ?_)
    simp [hanti]
  have hV2 : ∫ t, normPdf 0 s (d + e - t) * h t = -∫ t, normPdf 0 s t * h t := by
    rw [← integral_sub_left_eq_self (fun t => normPdf 0 s t * h t) volume (d + e), ← integral_neg]
    congr 1; funext t; simp only [hanti]; ring
  have hpos : ∀ t, t ≠ (d + e) / 2 → 0 < normPdf 0 s t * h t - normPdf 0 s (d + e - t) * h t := by
    intro t ht
    rw [← sub_mul]
    rcases lt_or_gt_of_ne ht with h1 | h1
    · apply mul_pos
      · have := hn.lt_of_abs (d := t) (e := d + e - t) (by
          rw [abs_of_pos (show 0 < d + e - t by linarith)]
          exact abs_lt.2 ⟨by linarith, by linarith⟩)
        simp only [zero_add] at this
        linarith
      · have := hc.lt_of_abs (d := d - t) (e := e - t) (by
          rw [abs_of_pos (show 0 < e - t by linarith)]
          exact abs_lt.2 ⟨by linarith, by linarith⟩)
        simp only [hh, add_sub_assoc]
        linarith
    · apply mul_pos_of_neg_of_neg
      · have := hn.lt_of_abs (d := d + e - t) (e := t) (by
          rw [abs_of_pos (show 0 < t by linarith)]
          exact abs_lt.2 ⟨by linarith, by linarith⟩)
        simp only [zero_add] at this
        linarith
      · have := hc.lt_of_abs (d := e - t) (e := d - t) (by
          rw [abs_of_neg (show d - t < 0 by linarith)]
          exact abs_lt.2 ⟨by linarith, by linarith⟩)
        simp only [hh, add_sub_assoc]
        linarith
  have hint : 0 < ∫ t, (normPdf 0 s t * h t - normPdf 0 s (d + e - t) * h t) := by
    rw [integral_pos_iff_support_of_nonneg]
    · refine lt_of_lt_of_le ?_ (measure_mono (show Set.Ioi ((d + e) / 2) ⊆ _ from fun t ht => ?_))
      · simp
      · exact (hpos t (ne_of_gt ht)).ne'
    · intro t
      by_cases ht : t = (d + e) / 2
      · have : d + e - t = t := by rw [ht]; ring
        simp [this]
      · exact (hpos t ht).le
    · exact i1.sub i2
  rw [integral_sub i1 i2, hV2] at hint
  linarith

theorem voigt_peaked (er : ℝ) {s g : ℝ} (hs : 0 < s) (hg : 0 < g) : Peaked er (voigtDensity er s g) where
  symm := voigt_symm er s g
  anti := fun _ _ hd hde => voigt_anti er hs hg hd hde

/-- What a Voigt resonance computes. -/
theorem voigt_call {k : PhysConst} {init inter : Level} {final : Option Level} {amu T w : ℝ} {r : Reso}
    (hr : mkVoigt k init inter amu T final = .ok r) (ha : amu ≠ 0) (hw : inter.width = .ok w) (E : ℝ) :
    r.call E = .ok ((voigtProfile (E - r.er) (dopplerWidth k amu T r.er / Real.sqrt 2) (0.5 * w)).smul r.ics) := by
  obtain ⟨r0, d, ps, hr0, hd, rfl⟩ := build_inv (s := .voigt amu T) hr
  simp only [Shape.distOf, hw, getDopplerWidth_ok k ha, bind, Except.bind, Except.ok.injEq, Prod.mk.injEq] at hd
  obtain ⟨rfl, rfl⟩ := hd
  simp [Reso.call, PV.toSemiDist, bind, Except.bind, mkPV]

/-- C35: for positive temperature and width the cross section is the integrated cross section times the convolution of
the normal density of scale Δ/√2 with the Lorentz density of half width Γ/2 around E_r; it is symmetric
about E_r and strictly decreasing with the distance from it, and integrates to the integrated cross section. -/
theorem C35_convolution {k : PhysConst} {init inter : Level} {final : Option Level} {amu T w : ℝ} {r : Reso}
    (hr : mkVoigt k init inter amu T final = .ok r) (ha : 0 < amu) (hT : 0 < T) (hE : init.exc < inter.exc)
    (hw : inter.width = .ok w) (hpos : 0 < w) :
    ∃ σ, r.HasSigma σ ∧
      (∀ E, σ E = r.ics * ∫ t, normPdf 0 (dopplerWidth k amu T r.er / Real.sqrt 2) t * cauchyPdf r.er (w / 2) (E - t)) ∧
      (∀ d, σ (r.er + d) = σ (r.er - d)) ∧
      (0 < r.ics → ∀ d d', |d| < |d'| → 0 < σ (r.er + d') ∧ σ (r.er + d') < σ (r.er + d)) ∧
      Integrable σ ∧ ∫ E, σ E = r.ics := by
  have her : r.er = inter.exc - init.exc := by
    obtain ⟨r0, d, ps, hr0, hd, rfl⟩ := build_inv (s := .voigt amu T) hr
    exact (mkResonance_inv hr0).1
  have hpe : 0 < r.er := by rw [her]; linarith
  have hD := dopplerWidth_pos k ha hT hpe
  have hs : 0 < dopplerWidth k amu T r.er / Real.sqrt 2 := by positivity
  have hg : 0 < w / 2 := by linarith
  refine ⟨fun E => r.ics * voigtDensity r.er (dopplerWidth k amu T r.er / Real.sqrt 2) (w / 2) E, ?_, fun E => rfl, ?_, ?_, ?_, ?_⟩
  · intro E
    rw [voigt_call hr ha.ne' hw, voigtProfile, if_neg hs.ne', if_neg (by linarith)]
    simp only [Fl.smul, voigtDensity, Except.ok.injEq, Fl.fin.injEq]
    congr 2
    funext t
    rw [← cauchyPdf_shift r.er]
    congr 2
    · ring
    · ring
  · intro d; simp only [voigt_symm]
  · intro hI d d' hdd
    exact ⟨mul_pos hI (voigt_pos _ hs hg _), mul_lt_mul_of_pos_left ((voigt_peaked r.er hs hg).lt_of_abs hdd) hI⟩
  · exact (voigt_integrable r.er hs hg).const_mul _
  · rw [integral_const_mul, voigt_integral r.er hs hg, mul_one]

example : ∃ r, mkVoigt exConst exGround exExcited 11 293 none = .ok r ∧ (0 : ℝ) < 11 ∧ (0 : ℝ) < 293 ∧
    exGround.exc < exExcited.exc ∧ exExcited.width = .ok 4 := by
  obtain ⟨r, h, -⟩ := exVoigt 293
  exact ⟨r, h, by norm_num, by norm_num, by norm_num [exGround, exExcited, groundState, state], exExcited_width⟩

/-- C35: at zero temperature the cross section is the one of the Breit-Wigner resonance of the same states. -/
theorem C35_zero_temperature {k : PhysConst} {init inter : Level} {final : Option Level} {amu w : ℝ} {r b : Reso}
    (hr : mkVoigt k init inter amu 0 final = .ok r) (hb : mkBreitWigner k init inter final = .ok b)
    (ha : 0 < amu) (hw : inter.width = .ok w) (hpos : 0 < w) (E : ℝ) : r.call E = b.call E := by
  obtain ⟨b0, w', hb0, hw', rfl⟩ := mkBreitWigner_inv hb
  rw [hw] at hw'; cases hw'
  have hc := voigt_call hr ha.ne' hw E
  obtain ⟨r0, d, ps, hr0, hd, rfl⟩ := build_inv (s := .voigt amu 0) hr
  have : b0 = r0 := by
    have h1 : mkResonance k init inter final noRecoil = .ok r0 := hr0
    rw [h1] at hb0
    simpa using hb0.symm
  subst this
  rw [hc]
  have hβ := (analytic_cauchy (r := { b0 with dist := cauchyDist, params := [b0.er, 0.5 * w] }) (l := b0.er)
    (s := 0.5 * w) rfl rfl (by linarith)).sigma E
  rw [hβ]
  have h0 : dopplerWidth k amu 0 b0.er = 0 := by simp [dopplerWidth]
  simp only [h0, zero_div, voigtProfile, if_true]
  rw [if_neg (by linarith), cauchyPdf_shift]
  rfl

example : ∃ r b, mkVoigt exConst exGround exExcited 11 0 none = .ok r ∧ mkBreitWigner exConst exGround exExcited none = .ok b := by
  obtain ⟨r, h, -⟩ := exVoigt 0
  obtain ⟨b, hb, -⟩ := exBreitWigner
  exact ⟨r, b, h, hb⟩

/-- C35: at zero width the cross section is the one of the Gauss resonance of the same states. -/
theorem C35_zero_width {k : PhysConst} {init inter : Level} {final : Option Level} {amu T : ℝ} {r b : Reso}
    (hr : mkVoigt k init inter amu T final = .ok r) (hb : mkGauss k init inter amu T final = .ok b)
    (ha : 0 < amu) (hT : 0 < T) (hE : init.exc < inter.exc) (hw : inter.width = .ok 0) (E : ℝ) : r.call E = b.call E := by
  obtain ⟨b0, hb0, -, rfl⟩ := mkGauss_inv hb
  have hc := voigt_call hr ha.ne' hw E
  obtain ⟨r0, d, ps, hr0, hd, rfl⟩ := build_inv (s := .voigt amu T) hr
  have : b0 = r0 := by
    have h1 : mkResonance k init inter final noRecoil = .ok r0 := hr0
    rw [h1] at hb0
    simpa using hb0.symm
  subst this
  have her := (mkResonance_inv hb0).1
  have hpe : 0 < b0.er := by rw [her]; unfold noRecoil; linarith
  have hD := dopplerWidth_pos k ha hT hpe
  have hs : 0 < dopplerWidth k amu T b0.er / Real.sqrt 2 := by positivity
  rw [hc]
  have hβ := (analytic_norm (r := { b0 with dist := normDist, params := [b0.er, dopplerWidth k amu T b0.er / Real.sqrt 2] })
    (l := b0.er) (s := dopplerWidth k amu T b0.er / Real.sqrt 2) rfl rfl hs).sigma E
  rw [hβ]
  simp only [mul_zero, voigtProfile, if_true]
  rw [if_neg hs.ne', normPdf_shift]
  rfl

/-- C19 for the Voigt shape. -/
theorem C19_voigt {r : Reso} (h : IsVoigt r) : ∃ σ, r.HasSigma σ ∧ Integrable σ ∧ ∫ E, σ E = r.ics := by
  obtain ⟨k, init, inter, amu, T, final, w, hr, ha, hT, hE, hw, hw0, hne⟩ := h
  rcases hw0.eq_or_lt with rfl | hpos
  · have hT0 : 0 < T := hne.resolve_left (lt_irrefl _)
    have her : r.er = inter.exc - init.exc := by
      obtain ⟨r0, d, ps, hr0, hd, rfl⟩ := build_inv (s := .voigt amu T) hr
      exact (mkResonance_inv hr0).1
    have hs : 0 < dopplerWidth k amu T r.er / Real.sqrt 2 := by
      have := dopplerWidth_pos k ha hT0 (show 0 < r.er by rw [her]; linarith)
      positivity
    refine ⟨fun E => r.ics * normPdf r.er (dopplerWidth k amu T r.er / Real.sqrt 2) E, fun E => ?_,
      (norm_good r.er hs).integrable.const_mul _, by rw [integral_const_mul, (norm_good r.er hs).integral, mul_one]⟩
    rw [voigt_call hr ha.ne' hw, voigtProfile, if_neg hs.ne', if_pos (by norm_num), normPdf_shift]
    rfl
  · rcases hT.eq_or_lt with rfl | hT0
    · have hg : 0 < 0.5 * w := by linarith
      refine ⟨fun E => r.ics * cauchyPdf r.er (0.5 * w) E, fun E => ?_,
        (cauchy_good r.er hg).integrable.const_mul _, by rw [integral_const_mul, (cauchy_good r.er hg).integral, mul_one]⟩
      have h0 : dopplerWidth k amu 0 r.er = 0 := by simp [dopplerWidth]
      rw [voigt_call hr ha.ne' hw, voigtProfile, h0, if_pos (by simp), if_neg hg.ne', cauchyPdf_shift]
      rfl
    · obtain ⟨σ, h1, -, -, -, h2, h3⟩ := C35_convolution hr ha hT0 hE hw hpos
      exact ⟨σ, h1, h2, h3⟩

example : ∃ r, IsVoigt r := exIsVoigt

end Ries
