import Verif.Lemmas.VoigtWings
import Verif.Props.HalfWidth

/-!
# C169: resonances far from their maximum
-/

open MeasureTheory Filter Topology

namespace Ries

/-! ## Lemmas -/

theorem tendsto_of_wing {f : ℝ → ℝ} {c l K : ℝ} (h : ∀ᶠ E in atTop, |f E - l| ≤ K / (E - c) ^ 2) : Tendsto f atTop (𝓝 l) := by
  rw [tendsto_iff_dist_tendsto_zero]
  have h0 : Tendsto (fun E => K / (E - c) ^ 2) atTop (𝓝 0) :=
    tendsto_const_nhds.div_atTop ((tendsto_pow_atTop (by norm_num)).comp (tendsto_atTop_add_const_right _ (-c) tendsto_id))
  refine squeeze_zero' (Eventually.of_forall fun E => dist_nonneg) ?_ h0
  simpa only [Real.dist_eq] using h

theorem cauchy_ratio (c : ℝ) {a b : ℝ} (ha : 0 < a) (hb : 0 < b) {E : ℝ} (hE : E ≠ c) :
    |cauchyPdf c a E / cauchyPdf c b E - a / b| ≤ (a / b * |b ^ 2 - a ^ 2|) / (E - c) ^ 2 := by
  have hx : 0 < (E - c) ^ 2 := by have := sub_ne_zero.2 hE; positivity
  have hpi := Real.pi_pos
  rw [cauchyPdf_frac c ha, cauchyPdf_frac c hb]
  have e : a / Real.pi * (1 / ((E - c) ^ 2 + a ^ 2)) / (b / Real.pi * (1 / ((E - c) ^ 2 + b ^ 2))) - a / b =
      a / b * (b ^ 2 - a ^ 2) / ((E - c) ^ 2 + a ^ 2) := by field_simp; ring
  rw [e, abs_div, abs_mul, abs_of_pos (div_pos ha hb), abs_of_pos (show 0 < (E - c) ^ 2 + a ^ 2 by positivity)]
  refine div_le_div_of_nonneg_left (by positivity) hx (by nlinarith [sq_nonneg a])

theorem norm_ratio (c : ℝ) {s b : ℝ} (hs : 0 < s) (hb : 0 < b) {E : ℝ} (hE : b ≤ |E - c|) :
    |normPdf c s E / cauchyPdf c b E - 0| ≤ (16 * Real.pi * s ^ 3 / b) / (E - c) ^ 2 := by
  have hx0 : 0 < |E - c| := hb.trans_le hE
  have hne : E - c ≠ 0 := abs_pos.1 hx0
  have hx : 0 < (E - c) ^ 2 := by rw [← sq_abs]; positivity
  have hbx : b ^ 2 ≤ (E - c) ^ 2 := by rw [← sq_abs (E - c)]; exact pow_le_pow_left₀ hb.le hE 2
  have hpi := Real.pi_pos
  have hn := normPdf_pos hs c E
  have hc := cauchyPdf_pos hb c E
  rw [sub_zero, abs_of_pos (div_pos hn hc), cauchyPdf_frac c hb]
  have h1 : normPdf c s E ≤ 8 * s ^ 3 / (E - c) ^ 4 := by
    have hz : 0 < ((E - c) / s) ^ 2 / 2 := by positivity
    have h2 := Real.quadratic_le_exp_of_nonneg hz.le
    have h3 : Real.exp (-((E - c) / s) ^ 2 / 2) ≤ 8 * s ^ 4 / (E - c) ^ 4 := by
      have e : -((E - c) / s) ^ 2 / 2 = -(((E - c) / s) ^ 2 / 2) := by ring
      rw [e, Real.exp_neg, inv_le_comm₀ (Real.exp_pos _) (by positivity)]
      refine le_trans (le_of_eq ?_) (show (((E - c) / s) ^ 2 / 2) ^ 2 / 2 ≤ _ by linarith)
      field_simp
      ring
    have h4 : 1 ≤ Real.sqrt (2 * Real.pi) := Real.one_le_sqrt.2 (by linarith [Real.pi_gt_three])
    unfold normPdf
    rw [div_le_iff₀ (by positivity)]
    refine h3.trans ?_
    have : 8 * s ^ 3 / (E - c) ^ 4 * (s * 1) ≤ 8 * s ^ 3 / (E - c) ^ 4 * (s * Real.sqrt (2 * Real.pi)) := by gcongr
    refine le_trans (le_of_eq ?_) this
    ring
  rw [div_le_iff₀ (by positivity)]
  refine h1.trans ?_
  have e : 16 * Real.pi * s ^ 3 / b / (E - c) ^ 2 * (b / Real.pi * (1 / ((E - c) ^ 2 + b ^ 2))) =
      16 * s ^ 3 / ((E - c) ^ 2 * ((E - c) ^ 2 + b ^ 2)) := by field_simp
  rw [e, div_le_div_iff₀ (by positivity) (by positivity)]
  have : (E - c) ^ 2 * ((E - c) ^ 2 + b ^ 2) ≤ 2 * (E - c) ^ 4 := by nlinarith
  have := mul_le_mul_of_nonneg_left this (show 0 ≤ 8 * s ^ 3 by positivity)
  linarith

theorem far (c b : ℝ) : ∀ᶠ E in atTop, b ≤ |E - c| := by
  filter_upwards [eventually_ge_atTop (c + b)] with E h
  exact le_trans (by linarith) (le_abs_self _)

/-- resonance energy, strength and cross section of the Breit-Wigner resonance with the states of a Voigt resonance -/
theorem breitWigner_of_voigt {k : PhysConst} {init inter : Level} {final : Option Level} {amu T w : ℝ} {v b : Reso}
    (hv : mkVoigt k init inter amu T final = .ok v) (hb : mkBreitWigner k init inter final = .ok b) (hw : inter.width = .ok w)
    (hpos : 0 < w) : v.er = b.er ∧ v.ics = b.ics ∧ b.HasSigma fun E => b.ics * cauchyPdf b.er (w / 2) E := by
  obtain ⟨b0, w', hb0, hw', rfl⟩ := mkBreitWigner_inv hb
  rw [hw] at hw'; cases hw'
  obtain ⟨r0, d, ps, hr0, -, e⟩ := build_inv (s := .voigt amu T) hv
  have h1 : mkResonance k init inter final noRecoil = .ok r0 := hr0
  rw [h1] at hb0; cases hb0
  refine ⟨by rw [e], by rw [e], ?_⟩
  have hw2 : 0.5 * w = w / 2 := by ring
  have := (analytic_cauchy (r := { b0 with dist := cauchyDist, params := [b0.er, 0.5 * w] }) rfl rfl (by linarith)).sigma
  simpa only [hw2] using this

/-! ## C169 -/

/-- C169 for Voigt resonances: compared with the Breit-Wigner cross section of the same states, thermal motion adds at most the
fraction `3 Δ² / Γ²` at any energy, and removes at most `2 Δ² / (4 (E - E_r)² + Γ²)`.  Far from the resonance energy both
are the same up to a fraction that falls like `1 / (E - E_r)²`. -/
theorem C169_voigt {k : PhysConst} {init inter : Level} {final : Option Level} {amu T w : ℝ} {v b : Reso}
    (hv : mkVoigt k init inter amu T final = .ok v) (hb : mkBreitWigner k init inter final = .ok b)
    (ha : 0 < amu) (hT : 0 ≤ T) (hE : init.exc < inter.exc) (hw : inter.width = .ok w) (hpos : 0 < w) (hI : 0 < b.ics)
    (σv σb : ℝ → ℝ) (hσv : v.HasSigma σv) (hσb : b.HasSigma σb) :
    (∀ E, 0 < σb E ∧ (1 - 2 * dopplerWidth k amu T b.er ^ 2 / (4 * (E - b.er) ^ 2 + w ^ 2)) * σb E ≤ σv E ∧
      σv E ≤ (1 + 3 * dopplerWidth k amu T b.er ^ 2 / w ^ 2) * σb E) ∧
    (∀ E, E ≠ b.er → σv E ≤ (1 + (8 / 3 * dopplerWidth k amu T b.er ^ 2 + 18 * dopplerWidth k amu T b.er ^ 4 / w ^ 2) /
      (E - b.er) ^ 2) * σb E) ∧
    Tendsto (fun E => σv E / σb E) atTop (𝓝 1) := by
  obtain ⟨e1, e2, hb'⟩ := breitWigner_of_voigt hv hb hw hpos
  have hv' := voigt_sigma hv ha hT hE hw hpos
  rw [e1, e2] at hv'
  rw [sigma_unique hσv hv', sigma_unique hσb hb']
  have hg : 0 < w / 2 := by linarith
  set D := dopplerWidth k amu T b.er with hD
  have hs2 : (D / Real.sqrt 2) ^ 2 = D ^ 2 / 2 := by rw [div_pow, Real.sq_sqrt (by norm_num)]
  have hs4 : (D / Real.sqrt 2) ^ 4 = D ^ 4 / 4 := by
    calc _ = ((D / Real.sqrt 2) ^ 2) ^ 2 := by ring
      _ = _ := by rw [hs2]; ring
  have hc : ∀ E, 0 < cauchyPdf b.er (w / 2) E := fun E => cauchyPdf_pos hg _ _
  have lo : ∀ E, (1 - 2 * D ^ 2 / (4 * (E - b.er) ^ 2 + w ^ 2)) * cauchyPdf b.er (w / 2) E ≤
      coldVoigt b.er (w / 2) E (D / Real.sqrt 2) := by
    intro E
    have := coldVoigt_ge b.er E (D / Real.sqrt 2) hg
    rw [hs2] at this
    refine le_trans (le_of_eq ?_) this
    have e : D ^ 2 / 2 / ((E - b.er) ^ 2 + (w / 2) ^ 2) = 2 * D ^ 2 / (4 * (E - b.er) ^ 2 + w ^ 2) := by field_simp; ring
    rw [e]; ring
  have wing : ∀ E, E ≠ b.er → coldVoigt b.er (w / 2) E (D / Real.sqrt 2) ≤
      (1 + (8 / 3 * D ^ 2 + 18 * D ^ 4 / w ^ 2) / (E - b.er) ^ 2) * cauchyPdf b.er (w / 2) E := by
    intro E hne
    have := coldVoigt_wing b.er (D / Real.sqrt 2) hg hne
    rw [hs2, hs4] at this
    refine le_trans this (le_of_eq ?_)
    have e : 16 / 3 * (D ^ 2 / 2) + 18 * (D ^ 4 / 4) / (w / 2) ^ 2 = 8 / 3 * D ^ 2 + 18 * D ^ 4 / w ^ 2 := by field_simp; ring
    rw [e]; ring
  refine ⟨fun E => ⟨mul_pos hI (hc E), ?_, ?_⟩, fun E hne => ?_, ?_⟩
  · have := mul_le_mul_of_nonneg_left (lo E) hI.le
    linarith
  · have := coldVoigt_le_global b.er E (D / Real.sqrt 2) hg
    rw [hs2] at this
    have := mul_le_mul_of_nonneg_left this hI.le
    refine this.trans (le_of_eq ?_)
    have e : 3 / 2 * (D ^ 2 / 2) / (w / 2) ^ 2 = 3 * D ^ 2 / w ^ 2 := by field_simp
    rw [e]; ring
  · have := mul_le_mul_of_nonneg_left (wing E hne) hI.le
    linarith
  · refine tendsto_of_wing (c := b.er) (K := 8 / 3 * D ^ 2 + 18 * D ^ 4 / w ^ 2) ?_
    filter_upwards [eventually_gt_atTop b.er] with E hlt
    have hx : 0 < (E - b.er) ^ 2 := by have := sub_pos.2 hlt; positivity
    rw [mul_div_mul_left _ _ hI.ne', abs_le]
    have h1 := lo E
    have h2 := wing E hlt.ne'
    constructor
    · rw [← sub_nonneg]
      have : 1 - 2 * D ^ 2 / (4 * (E - b.er) ^ 2 + w ^ 2) ≤ coldVoigt b.er (w / 2) E (D / Real.sqrt 2) / cauchyPdf b.er (w / 2) E :=
        (le_div_iff₀ (hc E)).2 h1
      have h3 : 2 * D ^ 2 / (4 * (E - b.er) ^ 2 + w ^ 2) ≤ (8 / 3 * D ^ 2 + 18 * D ^ 4 / w ^ 2) / (E - b.er) ^ 2 := by
        refine div_le_div₀ (by positivity) ?_ hx (by nlinarith [sq_nonneg w])
        have : 0 ≤ 18 * D ^ 4 / w ^ 2 := by positivity
        nlinarith [sq_nonneg D]
      linarith
    · have : coldVoigt b.er (w / 2) E (D / Real.sqrt 2) / cauchyPdf b.er (w / 2) E ≤
          1 + (8 / 3 * D ^ 2 + 18 * D ^ 4 / w ^ 2) / (E - b.er) ^ 2 := (div_le_iff₀ (hc E)).2 h2
      linarith

/-- C169 is false of the code for pseudo-Voigt resonances: far from the resonance energy they have between one half and 69 % of the Breit-Wigner
(and of the Voigt) cross section, at every temperature; one half at temperature zero. -/
theorem C169_refuted {k : PhysConst} {init inter : Level} {final : Option Level} {amu T w : ℝ} {v p b : Reso}
    (hv : mkVoigt k init inter amu T final = .ok v) (hp : mkPseudoVoigt k init inter amu T final = .ok p)
    (hb : mkBreitWigner k init inter final = .ok b)
    (ha : 0 < amu) (hT : 0 ≤ T) (hE : init.exc < inter.exc) (hw : inter.width = .ok w) (hpos : 0 < w) (hI : 0 < b.ics)
    (σv σp σb : ℝ → ℝ) (hσv : v.HasSigma σv) (hσp : p.HasSigma σp) (hσb : b.HasSigma σb) :
    ∃ l : ℝ, 1 / 2 ≤ l ∧ l ≤ 0.69 ∧ (T = 0 → l = 1 / 2) ∧ Tendsto (fun E => σp E / σb E) atTop (𝓝 l) ∧
      Tendsto (fun E => σp E / σv E) atTop (𝓝 l) := by
  obtain ⟨h1, h2, h3, h4⟩ := doppler_shapes hv hp ha hE hw hpos
  obtain ⟨e1, e2, hb'⟩ := breitWigner_of_voigt hv hb hw hpos
  have hvb := (C169_voigt hv hb ha hT hE hw hpos hI σv σb hσv hσb)
  rw [e1, e2] at h4
  rw [e1] at h3
  have key : ∃ l : ℝ, 1 / 2 ≤ l ∧ l ≤ 0.69 ∧ (T = 0 → l = 1 / 2) ∧ Tendsto (fun E => σp E / σb E) atTop (𝓝 l) := by
    rw [sigma_unique hσp h4, sigma_unique hσb hb']
    have hg : 0 < w / 2 := by linarith
    set D := dopplerWidth k amu T b.er with hD
    have hD0 : 0 ≤ D := by rw [hD]; unfold dopplerWidth; positivity
    have hl := sqrt_log_two_pos
    set G := pvGamma (2 * Real.sqrt (Real.log 2) * D) w with hG
    have hwG : w ≤ G := pvGamma_ge_right (by positivity) hpos.le
    have hG0 : 0 < G := hpos.trans_le hwG
    have ec : (mkPV b.er w D).cauchyScale = G / 4 := by
      simp only [PV.cauchyScale, mkPV]
      ring
    have en : (mkPV b.er w D).normScale = G / (2 * Real.sqrt (Real.log 2)) / Real.sqrt 2 := rfl
    have ee : (mkPV b.er w D).eta = pvEta w G := rfl
    have er' : (mkPV b.er w D).er = b.er := rfl
    have hq : w / G ≤ 1 := (div_le_one hG0).2 hwG
    have hq0 : 0 < w / G := by positivity
    have el : pvEta w G * ((G / 4) / (w / 2)) = (1.36603 - 0.47719 * (w / G) + 0.11116 * (w / G) ^ 2) / 2 := by
      rw [pvEta_ratio]; field_simp; ring
    refine ⟨pvEta w G * ((G / 4) / (w / 2)), ?_, ?_, ?_, ?_⟩
    · rw [el]; nlinarith
    · rw [el]; nlinarith
    · intro hT0
      have : D = 0 := by rw [hD, hT0]; simp [dopplerWidth]
      have hGw : G = w := by
        rw [hG, this, mul_zero, pvGamma_eq le_rfl hpos.le]
        have : pvBase 0 w = w ^ 5 := by unfold pvBase; ring
        rw [this, pow_five_root hpos.le]
      rw [el, hGw, div_self hpos.ne']; norm_num
    · have hns : 0 < (mkPV b.er w D).normScale := by rw [en]; positivity
      have t1 : Tendsto (fun E => cauchyPdf b.er (G / 4) E / cauchyPdf b.er (w / 2) E) atTop (𝓝 ((G / 4) / (w / 2))) := by
        refine tendsto_of_wing (c := b.er) (K := (G / 4) / (w / 2) * |(w / 2) ^ 2 - (G / 4) ^ 2|) ?_
        filter_upwards [eventually_gt_atTop b.er] with E hlt
        exact cauchy_ratio b.er (by positivity) hg hlt.ne'
      have t2 : Tendsto (fun E => normPdf b.er (mkPV b.er w D).normScale E / cauchyPdf b.er (w / 2) E) atTop (𝓝 0) := by
        refine tendsto_of_wing (c := b.er) (K := 16 * Real.pi * (mkPV b.er w D).normScale ^ 3 / (w / 2)) ?_
        filter_upwards [far b.er (w / 2)] with E hfar
        exact norm_ratio b.er hns hg hfar
      have t3 := (t2.const_mul (1 - pvEta w G)).add (t1.const_mul (pvEta w G))
      rw [mul_zero, zero_add] at t3
      refine t3.congr fun E => ?_
      simp only [PV.pdfR, ec, ee, er']
      rw [mul_div_mul_left _ _ hI.ne']
      ring
  obtain ⟨l, a1, a2, a3, a4⟩ := key
  refine ⟨l, a1, a2, a3, a4, ?_⟩
  have := a4.div hvb.2.2 one_ne_zero
  rw [div_one] at this
  refine this.congr fun E => ?_
  have hb0 : σb E ≠ 0 := (hvb.1 E).1.ne'
  simp only [Pi.div_apply]
  rw [div_div_div_cancel_right₀ hb0]

/-- C169 for Gauss resonances: they have no wings; the ratio to the Breit-Wigner cross section falls to zero. -/
theorem C169_gauss {k : PhysConst} {init inter : Level} {final : Option Level} {amu T w : ℝ} {r b : Reso}
    (hr : mkGauss k init inter amu T final = .ok r) (hb : mkBreitWigner k init inter final = .ok b)
    (ha : 0 < amu) (hT : 0 < T) (hE : init.exc < inter.exc) (hw : inter.width = .ok w) (hpos : 0 < w) (hI : 0 < b.ics)
    (σr σb : ℝ → ℝ) (hσr : r.HasSigma σr) (hσb : b.HasSigma σb) : Tendsto (fun E => σr E / σb E) atTop (𝓝 0) := by
  obtain ⟨b0, w', hb0, hw', rfl⟩ := mkBreitWigner_inv hb
  rw [hw] at hw'; cases hw'
  obtain ⟨r0, h0, -, rfl⟩ := mkGauss_inv hr
  rw [h0] at hb0; cases hb0
  have her := (mkResonance_inv h0).1
  have hpe : 0 < b0.er := by rw [her]; unfold noRecoil; linarith
  have hg : 0 < 0.5 * w := by linarith
  have hs : 0 < dopplerWidth k amu T b0.er / Real.sqrt 2 := div_pos (dopplerWidth_pos k ha hT hpe) (by positivity)
  rw [sigma_unique hσr (analytic_norm rfl rfl hs).sigma, sigma_unique hσb (analytic_cauchy rfl rfl hg).sigma]
  refine tendsto_of_wing (c := b0.er) (K := 16 * Real.pi * (dopplerWidth k amu T b0.er / Real.sqrt 2) ^ 3 / (0.5 * w)) ?_
  · filter_upwards [far b0.er (0.5 * w)] with E hfar
    rw [mul_div_mul_left _ _ (show b0.ics ≠ 0 from hI.ne')]
    exact norm_ratio b0.er hs hg hfar

/-- A level with positive strength at room temperature. -/
example : ∃ v p r b, mkVoigt exConst exGround exMid 11 293 none = .ok v ∧ mkPseudoVoigt exConst exGround exMid 11 293 none = .ok p ∧
    mkGauss exConst exGround exMid 11 293 none = .ok r ∧ mkBreitWigner exConst exGround exMid none = .ok b ∧
    exGround.exc < exMid.exc ∧ exMid.width = .ok 1e-5 ∧ 0 < b.ics := by
  obtain ⟨r, hr, -, hI⟩ := exMid_resonance
  have hd := getDopplerWidth_ok exConst (show (11 : ℝ) ≠ 0 by norm_num)
  refine ⟨{ r with dist := (mkPV r.er 1e-5 (dopplerWidth exConst 11 293 r.er)).toSemiDist, params := [] },
    { r with dist := (mkPV r.er 1e-5 (dopplerWidth exConst 11 293 r.er)).toDist, params := [] },
    { r with dist := normDist, params := [r.er, dopplerWidth exConst 11 293 r.er / Real.sqrt 2] },
    { r with dist := cauchyDist, params := [r.er, 0.5 * 1e-5] }, ?_, ?_, ?_, ?_,
    by norm_num [exGround, exMid, groundState, state], exMid_width, hI⟩
  · simp only [mkVoigt, mkPseudoVoigt, hr, exMid_width, hd, Bind.bind, Except.bind]
  · simp only [mkPseudoVoigt, hr, exMid_width, hd, Bind.bind, Except.bind]
  · simp only [mkGauss, hr, hd, Bind.bind, Except.bind]
  · simp only [mkBreitWigner, hr, exMid_width, Bind.bind, Except.bind]

end Ries
