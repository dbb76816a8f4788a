import Verif.Lemmas.VoigtCdf
import Verif.Props.VoigtDeviation
import Verif.Props.Coverage
import Verif.Props.Beam

/-!
# C157: thermal motion spreads a resonance
-/

open MeasureTheory Set

namespace Ries

/-! ## Lemmas -/

theorem dopplerWidth_lt (k : PhysConst) {amu amu' T T' E : ℝ} (ha : 0 < amu) (ha' : 0 < amu') (hT : 0 ≤ T) (hE : 0 < E)
    (h : T * amu' < T' * amu) : dopplerWidth k amu T E < dopplerWidth k amu' T' E := by
  have hu := k.u_pos
  have hk := k.kB_pos
  unfold dopplerWidth
  refine mul_lt_mul_of_pos_left (Real.sqrt_lt_sqrt (by positivity) ?_) hE
  rw [div_lt_div_iff₀ (by positivity) (by positivity)]
  have : 0 < 2 * k.kB * 1e-6 * k.u := by positivity
  have := mul_lt_mul_of_pos_left h this
  linarith

/-- The maximum of a pseudo-Voigt distribution falls with the Doppler width. -/
theorem pv_peak_anti (er : ℝ) {w d d' : ℝ} (hw : 0 < w) (hd : 0 ≤ d) (hdd : d < d') : (mkPV er w d').pdfR er < (mkPV er w d).pdfR er := by
  have hpi := Real.pi_pos
  have hl := sqrt_log_two_pos
  set lg := Real.sqrt (Real.log 2) with hlg
  have hl1 : lg ≤ 1 := Real.sqrt_le_one.2 (by have := Real.log_two_lt_d9; linarith)
  have hl2 : lg ^ 2 ≤ 0.7 := by rw [hlg, Real.sq_sqrt (Real.log_nonneg (by norm_num))]; have := Real.log_two_lt_d9; linarith
  have hsp := Real.sqrt_pos.2 hpi
  -- maximum in terms of the width and the mixing parameter
  have hpeak : ∀ d, 0 ≤ d → (mkPV er w d).pdfR er =
      (2 * lg / Real.sqrt Real.pi + pvEta w (pvGamma (2 * lg * d) w) * (4 / Real.pi - 2 * lg / Real.sqrt Real.pi)) /
        pvGamma (2 * lg * d) w := by
    intro d hd
    have hG : 0 < pvGamma (2 * lg * d) w := hw.trans_le (pvGamma_ge_right (by positivity) hw.le)
    have e1 : normPdf er (mkPV er w d).normScale er = 2 * lg / Real.sqrt Real.pi / pvGamma (2 * lg * d) w := by
      have e : (mkPV er w d).normScale = pvGamma (2 * lg * d) w / (2 * lg) / Real.sqrt 2 := rfl
      rw [e]
      simp only [normPdf, sub_self, zero_div]
      rw [Real.sqrt_mul (by norm_num)]
      simp
      field_simp
    have e2 : cauchyPdf er (mkPV er w d).cauchyScale er = 4 / Real.pi / pvGamma (2 * lg * d) w := by
      have e : (mkPV er w d).cauchyScale = pvGamma (2 * lg * d) w / 4 := by
        simp only [PV.cauchyScale, mkPV]
        ring
      rw [e]
      simp [cauchyPdf]
      field_simp
    have e3 : (mkPV er w d).eta = pvEta w (pvGamma (2 * lg * d) w) := rfl
    have e4 : (mkPV er w d).er = er := rfl
    simp only [PV.pdfR, e4, e1, e2, e3]
    ring
  rw [hpeak d hd, hpeak d' (hd.trans hdd.le)]
  have hg0 : 0 ≤ 2 * lg * d := by positivity
  have hgg : 2 * lg * d < 2 * lg * d' := mul_lt_mul_of_pos_left hdd (by positivity)
  generalize 2 * lg * d = g at *
  generalize 2 * lg * d' = g' at *
  have hGG : pvGamma g w < pvGamma g' w := by
    rw [pvGamma_eq hg0 hw.le, pvGamma_eq (hg0.trans hgg.le) hw.le]
    have h0 : 0 ≤ pvBase g w := (by positivity : 0 ≤ g ^ 5).trans (pvBase_ge_left hg0 hw.le)
    refine Real.rpow_lt_rpow h0 ?_ (by norm_num)
    have h5 : g ^ 5 < g' ^ 5 := pow_lt_pow_left₀ hgg hg0 (by norm_num)
    have h4 : g ^ 4 ≤ g' ^ 4 := pow_le_pow_left₀ hg0 hgg.le 4
    have h3 : g ^ 3 ≤ g' ^ 3 := pow_le_pow_left₀ hg0 hgg.le 3
    have h2 : g ^ 2 ≤ g' ^ 2 := pow_le_pow_left₀ hg0 hgg.le 2
    have m4 := mul_le_mul_of_nonneg_right h4 hw.le
    have m3 := mul_le_mul_of_nonneg_right h3 (show 0 ≤ w ^ 2 by positivity)
    have m2 := mul_le_mul_of_nonneg_right h2 (show 0 ≤ w ^ 3 by positivity)
    have m1 := mul_le_mul_of_nonneg_right hgg.le (show 0 ≤ w ^ 4 by positivity)
    unfold pvBase
    linarith
  have hG : 0 < pvGamma g w := hw.trans_le (pvGamma_ge_right hg0 hw.le)
  have hwG : w ≤ pvGamma g w := pvGamma_ge_right hg0 hw.le
  generalize pvGamma g w = G at *
  generalize pvGamma g' w = G' at *
  have hG' : 0 < G' := hG.trans hGG
  have hη : pvEta w G' ≤ pvEta w G := by
    rw [pvEta_ratio, pvEta_ratio]
    have q1 : w / G ≤ 1 := (div_le_one hG).2 hwG
    have q2 : w / G' ≤ w / G := div_le_div_of_nonneg_left hw.le hG hGG.le
    have q0 : 0 < w / G' := by positivity
    generalize w / G = q at *
    generalize w / G' = q' at *
    have : 0 ≤ (q - q') * (1.36603 - 0.47719 * (q + q') + 0.11116 * (q ^ 2 + q * q' + q' ^ 2)) := by
      refine mul_nonneg (by linarith) ?_
      have : 0 ≤ q ^ 2 + q * q' + q' ^ 2 := by nlinarith
      linarith
    linarith
  have hη0 : 0 ≤ pvEta w G' := (pvEta_bounds hw.le (hwG.trans hGG.le) hG').1
  have hA : 0 < 2 * lg / Real.sqrt Real.pi := by positivity
  have hAB : 2 * lg / Real.sqrt Real.pi ≤ 4 / Real.pi := by
    rw [div_le_div_iff₀ hsp hpi]
    have h1 : Real.sqrt Real.pi ≤ 2 := Real.sqrt_le_iff.2 ⟨by norm_num, by have := Real.pi_le_four; norm_num; linarith⟩
    have h2 : Real.sqrt Real.pi * Real.sqrt Real.pi = Real.pi := Real.mul_self_sqrt hpi.le
    have h3 : lg * Real.sqrt Real.pi ≤ 2 := by nlinarith
    calc 2 * lg * Real.pi = 2 * lg * (Real.sqrt Real.pi * Real.sqrt Real.pi) := by rw [h2]
      _ = 2 * (lg * Real.sqrt Real.pi) * Real.sqrt Real.pi := by ring
      _ ≤ 4 * Real.sqrt Real.pi := by nlinarith
  set A := 2 * lg / Real.sqrt Real.pi
  rw [div_lt_div_iff₀ hG' hG]
  have h1 : A + pvEta w G' * (4 / Real.pi - A) ≤ A + pvEta w G * (4 / Real.pi - A) := by
    have := mul_le_mul_of_nonneg_right hη (sub_nonneg.2 hAB)
    linarith
  have h2 : 0 < A + pvEta w G' * (4 / Real.pi - A) := by
    have := mul_nonneg hη0 (sub_nonneg.2 hAB)
    linarith
  calc _ < (A + pvEta w G' * (4 / Real.pi - A)) * G' := mul_lt_mul_of_pos_left hGG h2
    _ ≤ _ := mul_le_mul_of_nonneg_right h1 hG'.le

/-! ## C157 -/

/-- C157 for Gauss resonances: with a higher ratio of temperature and mass, the integrated cross section stays the same, the value at
the resonance energy falls, and so does the amount in every interval around the resonance energy. -/
theorem C157_gauss {k : PhysConst} {init inter : Level} {final : Option Level} {amu amu' T T' : ℝ} {r r' : Reso}
    (hr : mkGauss k init inter amu T final = .ok r) (hr' : mkGauss k init inter amu' T' final = .ok r')
    (ha : 0 < amu) (ha' : 0 < amu') (hT : 0 < T) (hE : init.exc < inter.exc) (hI : 0 < r.ics) (h : T / amu < T' / amu') :
    ∃ σ σ' : ℝ → ℝ, r.HasSigma σ ∧ r'.HasSigma σ' ∧ r'.er = r.er ∧ (∫ E, σ' E) = (∫ E, σ E) ∧ σ' r.er < σ r.er ∧
      ∀ L, 0 < L → ∫ E in (r.er - L)..(r.er + L), σ' E < ∫ E in (r.er - L)..(r.er + L), σ E := by
  rw [div_lt_div_iff₀ ha ha'] at h
  obtain ⟨r0, h0, -, rfl⟩ := mkGauss_inv hr
  obtain ⟨r0', h0', -, rfl⟩ := mkGauss_inv hr'
  rw [h0] at h0'; cases h0'
  have her := (mkResonance_inv h0).1
  have hpos : 0 < r0.er := by rw [her]; unfold noRecoil; linarith
  have hlt := dopplerWidth_lt k ha ha' hT.le hpos h
  have hs : 0 < dopplerWidth k amu T r0.er / Real.sqrt 2 := div_pos (dopplerWidth_pos k ha hT hpos) (by positivity)
  have hss : dopplerWidth k amu T r0.er / Real.sqrt 2 < dopplerWidth k amu' T' r0.er / Real.sqrt 2 :=
    div_lt_div_of_pos_right hlt (by positivity)
  have hs' := hs.trans hss
  refine ⟨_, _, (analytic_norm rfl rfl hs).sigma, (analytic_norm rfl rfl hs').sigma, rfl, ?_, ?_, ?_⟩
  · rw [integral_const_mul, integral_const_mul, (norm_good _ hs).integral, (norm_good _ hs').integral]
  · refine mul_lt_mul_of_pos_left ?_ hI
    simp only [normPdf, sub_self]
    simp
    have h1 : (dopplerWidth k amu' T' r0.er / Real.sqrt 2)⁻¹ < (dopplerWidth k amu T r0.er / Real.sqrt 2)⁻¹ := (inv_lt_inv₀ hs' hs).2 hss
    have h2 : 0 < (Real.sqrt Real.pi)⁻¹ * (Real.sqrt 2)⁻¹ := by have := Real.pi_pos; positivity
    have := mul_lt_mul_of_pos_right h1 h2
    rw [inv_div, inv_div] at this
    linarith
  · intro L hL
    rw [intervalIntegral.integral_const_mul, intervalIntegral.integral_const_mul, (norm_good _ hs).intervalIntegral,
      (norm_good _ hs').intervalIntegral]
    refine mul_lt_mul_of_pos_left ?_ hI
    simp only
    rw [normCdf_std_eq _ hs, normCdf_std_eq _ hs, normCdf_std_eq _ hs', normCdf_std_eq _ hs']
    have hm := (norm_good 0 one_pos).strictMono
    have e1 : r0.er + L - r0.er = L := by ring
    have e2 : r0.er - L - r0.er = -L := by ring
    rw [e1, e2]
    have hq : L / (dopplerWidth k amu' T' r0.er / Real.sqrt 2) < L / (dopplerWidth k amu T r0.er / Real.sqrt 2) :=
      div_lt_div_of_pos_left hL hs hss
    have m1 := hm hq
    have m2 := hm (show -L / (dopplerWidth k amu T r0.er / Real.sqrt 2) < -L / (dopplerWidth k amu' T' r0.er / Real.sqrt 2) by
      rw [neg_div, neg_div]; linarith)
    linarith

/-- C157 for Voigt resonances, also at temperature zero. -/
theorem C157_voigt {k : PhysConst} {init inter : Level} {final : Option Level} {amu amu' T T' w : ℝ} {r r' : Reso}
    (hr : mkVoigt k init inter amu T final = .ok r) (hr' : mkVoigt k init inter amu' T' final = .ok r')
    (ha : 0 < amu) (ha' : 0 < amu') (hT : 0 ≤ T) (hE : init.exc < inter.exc) (hw : inter.width = .ok w) (hpos : 0 < w)
    (hI : 0 < r.ics) (h : T / amu < T' / amu') :
    ∃ σ σ' : ℝ → ℝ, r.HasSigma σ ∧ r'.HasSigma σ' ∧ r'.er = r.er ∧ (∫ E, σ' E) = (∫ E, σ E) ∧ σ' r.er < σ r.er ∧
      ∀ L, 0 < L → ∫ E in (r.er - L)..(r.er + L), σ' E < ∫ E in (r.er - L)..(r.er + L), σ E := by
  rw [div_lt_div_iff₀ ha ha'] at h
  have hT' : 0 < T' := pos_of_mul_pos_left (lt_of_le_of_lt (mul_nonneg hT ha'.le) h) ha.le
  have hg : 0 < w / 2 := by linarith
  have hsame : r'.er = r.er ∧ r'.ics = r.ics ∧ r.er = inter.exc - init.exc := by
    obtain ⟨r0, d, ps, hr0, -, rfl⟩ := build_inv (s := .voigt amu T) hr
    obtain ⟨r0', d', ps', hr0', -, rfl⟩ := build_inv (s := .voigt amu' T') hr'
    have h1 : mkResonance k init inter final noRecoil = .ok r0 := hr0
    have h2 : mkResonance k init inter final noRecoil = .ok r0' := hr0'
    rw [h1] at h2; cases h2
    exact ⟨rfl, rfl, (mkResonance_inv h1).1⟩
  obtain ⟨e1, e2, e3⟩ := hsame
  have hpe : 0 < r.er := by rw [e3]; linarith
  have hlt := dopplerWidth_lt k ha ha' hT hpe h
  have hss : dopplerWidth k amu T r.er / Real.sqrt 2 < dopplerWidth k amu' T' r.er / Real.sqrt 2 :=
    div_lt_div_of_pos_right hlt (by positivity)
  have hs : 0 ≤ dopplerWidth k amu T r.er / Real.sqrt 2 := by unfold dopplerWidth; positivity
  have v1 := voigt_sigma hr ha hT hE hw hpos
  have v2 := voigt_sigma hr' ha' hT'.le hE hw hpos
  rw [e1, e2] at v2
  set s := dopplerWidth k amu T r.er / Real.sqrt 2
  set s' := dopplerWidth k amu' T' r.er / Real.sqrt 2
  have hint : ∀ s, 0 ≤ s → ∫ E, coldVoigt r.er (w / 2) E s = 1 := by
    intro s hs
    rcases hs.eq_or_lt with rfl | hs
    · simp only [coldVoigt_zero]
      exact (cauchy_good r.er hg).integral
    · simp only [← coldVoigt_eq r.er _ (w / 2) hs]
      exact voigt_integral r.er hs hg
  have hcen : ∀ s, 0 ≤ s → ∀ L, 0 < L → ∫ E in (r.er - L)..(r.er + L), coldVoigt r.er (w / 2) E s = centralVoigt r.er (w / 2) L s := by
    intro s hs L hL
    rcases hs.eq_or_lt with rfl | hs
    · simp only [coldVoigt_zero, centralVoigt_zero]
      exact (cauchy_good r.er hg).intervalIntegral _ _
    · simp only [← coldVoigt_eq r.er _ (w / 2) hs]
      exact centralVoigt_eq r.er hs hg hL.le
  refine ⟨_, _, v1, v2, e1, ?_, ?_, ?_⟩
  · rw [integral_const_mul, integral_const_mul, hint s hs, hint s' (hs.trans hss.le)]
  · exact mul_lt_mul_of_pos_left (coldVoigt_anti r.er hg hs hss) hI
  · intro L hL
    rw [intervalIntegral.integral_const_mul, intervalIntegral.integral_const_mul, hcen s hs L hL, hcen s' (hs.trans hss.le) L hL]
    exact mul_lt_mul_of_pos_left (centralVoigt_anti r.er hg hL hs hss) hI

/-- C157 for pseudo-Voigt resonances: integrated cross section and maximum. -/
theorem C157_pseudoVoigt {k : PhysConst} {init inter : Level} {final : Option Level} {amu amu' T T' w : ℝ} {r r' : Reso}
    (hr : mkPseudoVoigt k init inter amu T final = .ok r) (hr' : mkPseudoVoigt k init inter amu' T' final = .ok r')
    (ha : 0 < amu) (ha' : 0 < amu') (hT : 0 ≤ T) (hE : init.exc < inter.exc) (hw : inter.width = .ok w) (hpos : 0 < w)
    (hI : 0 < r.ics) (h : T / amu < T' / amu') :
    ∃ σ σ' : ℝ → ℝ, r.HasSigma σ ∧ r'.HasSigma σ' ∧ r'.er = r.er ∧ (∫ E, σ' E) = (∫ E, σ E) ∧ σ' r.er < σ r.er ∧
      (∀ E, σ E ≤ σ r.er) ∧ ∀ E, σ' E ≤ σ' r.er := by
  rw [div_lt_div_iff₀ ha ha'] at h
  obtain ⟨r0, hr0⟩ : ∃ r0, mkResonance k init inter final noRecoil = .ok r0 := by
    obtain ⟨r0, d, ps, hr0, -, -⟩ := build_inv (s := .pseudoVoigt amu T) hr
    exact ⟨r0, hr0⟩
  have her := (mkResonance_inv hr0).1
  have hpe : 0 < r0.er := by rw [her]; unfold noRecoil; linarith
  simp only [mkPseudoVoigt, hr0, hw, getDopplerWidth_ok k ha.ne', getDopplerWidth_ok k ha'.ne', Bind.bind, Except.bind,
    Except.ok.injEq] at hr hr'
  subst hr hr'
  have hlt := dopplerWidth_lt k ha ha' hT hpe h
  have hd : 0 ≤ dopplerWidth k amu T r0.er := by unfold dopplerWidth; positivity
  have hok : PV.Ok w (dopplerWidth k amu T r0.er) := ⟨hpos.le, hd, Or.inl hpos⟩
  have hok' : PV.Ok w (dopplerWidth k amu' T' r0.er) := ⟨hpos.le, hd.trans hlt.le, Or.inl hpos⟩
  refine ⟨_, _, pv_sigma hok rfl rfl, pv_sigma hok' rfl rfl, rfl, ?_, ?_, fun E => ?_, fun E => ?_⟩
  · rw [integral_const_mul, integral_const_mul, hok.good.integral, hok'.good.integral]
  · exact mul_lt_mul_of_pos_left (pv_peak_anti r0.er hpos hd hlt) hI
  · exact mul_le_mul_of_nonneg_left (hok.peaked.le_peak E) (le_of_lt hI)
  · exact mul_le_mul_of_nonneg_left (hok'.peaked.le_peak E) (le_of_lt hI)

/-- The hypotheses are met, for a change of temperature (from 0 K in the case of Voigt and pseudo-Voigt) and another mass. -/
example : ∃ v v' p p' g g', mkVoigt exConst exGround exMid 11 0 none = .ok v ∧ mkVoigt exConst exGround exMid 10 293 none = .ok v' ∧
    mkPseudoVoigt exConst exGround exMid 11 0 none = .ok p ∧ mkPseudoVoigt exConst exGround exMid 10 293 none = .ok p' ∧
    mkGauss exConst exGround exMid 11 293 none = .ok g ∧ mkGauss exConst exGround exMid 10 293 none = .ok g' ∧
    exGround.exc < exMid.exc ∧ exMid.width = .ok 1e-5 ∧ 0 < v.ics ∧ 0 < p.ics ∧ 0 < g.ics ∧
    (0 : ℝ) / 11 < 293 / 10 ∧ (293 : ℝ) / 11 < 293 / 10 := by
  obtain ⟨r, hr, he, hI⟩ := exMid_resonance
  have hp : ∀ amu T : ℝ, amu ≠ 0 → mkPseudoVoigt exConst exGround exMid amu T none =
      .ok { r with dist := (mkPV r.er 1e-5 (dopplerWidth exConst amu T r.er)).toDist, params := [] } := fun amu T ha => by
    simp [mkPseudoVoigt, hr, exMid_width, getDopplerWidth_ok exConst ha, Bind.bind, Except.bind]
  have hv : ∀ amu T : ℝ, amu ≠ 0 → mkVoigt exConst exGround exMid amu T none =
      .ok { r with dist := (mkPV r.er 1e-5 (dopplerWidth exConst amu T r.er)).toSemiDist, params := [] } := fun amu T ha => by
    simp [mkVoigt, mkPseudoVoigt, hr, exMid_width, getDopplerWidth_ok exConst ha, Bind.bind, Except.bind]
  have hg : ∀ amu T : ℝ, amu ≠ 0 → mkGauss exConst exGround exMid amu T none =
      .ok { r with dist := normDist, params := [r.er, dopplerWidth exConst amu T r.er / Real.sqrt 2] } := fun amu T ha => by
    simp [mkGauss, hr, getDopplerWidth_ok exConst ha, Bind.bind, Except.bind]
  exact ⟨_, _, _, _, _, _, hv 11 0 (by norm_num), hv 10 293 (by norm_num), hp 11 0 (by norm_num), hp 10 293 (by norm_num),
    hg 11 293 (by norm_num), hg 10 293 (by norm_num), by norm_num [exGround, exMid, groundState, state], exMid_width, hI, hI, hI,
    by norm_num, by norm_num⟩

/-- C157: the cross section of every shape is symmetric about the resonance energy and falls strictly on both sides, so that it has its
maximum there and nowhere else. -/
theorem C157_maximum {r : Reso} (h : IsBreitWigner r ∨ IsGauss r ∨ IsPseudoVoigt r ∨ IsVoigt r) (hI : 0 < r.ics) {σ : ℝ → ℝ}
    (hσ : r.HasSigma σ) : (∀ E, E ≠ r.er → σ E < σ r.er) ∧ ∀ E E', |E - r.er| < |E' - r.er| ↔ σ E' < σ E := by
  obtain ⟨τ, hτ, -, hp, -⟩ := shape_sigma h hI
  have e : σ = τ := funext fun E => by
    have h1 := hσ E
    rw [hτ E] at h1
    simpa using h1.symm
  subst e
  have habs : ∀ E, σ E = σ (r.er + |E - r.er|) := fun E => by rw [hp.abs_eq]; congr 1; ring
  have key : ∀ E E', |E - r.er| < |E' - r.er| → σ E' < σ E := fun E E' hlt => by
    rw [habs E, habs E']
    exact hp.anti _ _ (abs_nonneg _) hlt
  refine ⟨fun E hE => key _ _ (by simpa [abs_pos, sub_ne_zero] using hE), fun E E' => ⟨key E E', fun hlt => ?_⟩⟩
  rcases lt_trichotomy |E - r.er| |E' - r.er| with h1 | h1 | h1
  · exact h1
  · rw [habs E, habs E', h1] at hlt; exact absurd hlt (lt_irrefl _)
  · exact absurd (key _ _ h1) (not_lt.2 hlt.le)

example : ∃ r σ, IsBreitWigner r ∧ 0 < r.ics ∧ r.HasSigma σ := by
  obtain ⟨r, h, -, hI⟩ := exMid_resonance
  have hb : IsBreitWigner { r with dist := cauchyDist, params := [r.er, 0.5 * 1e-5] } :=
    ⟨exConst, exGround, exMid, none, 1e-5, by simp [mkBreitWigner, h, exMid_width, Bind.bind, Except.bind], exMid_width, by norm_num⟩
  obtain ⟨σ, hσ, -⟩ := shape_sigma (.inl hb) hI
  exact ⟨_, σ, hb, hI, hσ⟩

end Ries
