import Verif.Lemmas.VoigtDeviation
import Verif.Props.VoigtLimits

/-! # Property C126: how well the pseudo-Voigt cross section approximates the Voigt cross section -/

namespace Ries

/-- strength, energy and Doppler width shared by the three Doppler-broadened shapes of given states -/
theorem doppler_shapes {k : PhysConst} {init inter : Level} {final : Option Level} {amu T w : ℝ} {v p : Reso}
    (hv : mkVoigt k init inter amu T final = .ok v) (hp : mkPseudoVoigt k init inter amu T final = .ok p)
    (ha : 0 < amu) (hE : init.exc < inter.exc) (hw : inter.width = .ok w) (hpos : 0 < w) :
    p.er = v.er ∧ p.ics = v.ics ∧ 0 < v.er ∧
      p.HasSigma (fun E => v.ics * (mkPV v.er w (dopplerWidth k amu T v.er)).pdfR E) := by
  obtain ⟨r0, hr0⟩ : ∃ r0, mkResonance k init inter final noRecoil = .ok r0 := by
    obtain ⟨r0, d, ps, hr0, -, -⟩ := build_inv (s := .voigt amu T) hv
    exact ⟨r0, hr0⟩
  have her := (mkResonance_inv hr0).1
  have hpe : 0 < r0.er := by rw [her]; unfold noRecoil; linarith
  have e1 : v = { r0 with dist := (mkPV r0.er w (dopplerWidth k amu T r0.er)).toSemiDist, params := [] } := by
    simp only [mkVoigt, mkPseudoVoigt, hr0, hw, getDopplerWidth_ok k ha.ne', Bind.bind, Except.bind, Except.ok.injEq] at hv
    exact hv.symm
  have e2 : p = { r0 with dist := (mkPV r0.er w (dopplerWidth k amu T r0.er)).toDist, params := [] } := by
    simp only [mkPseudoVoigt, hr0, hw, getDopplerWidth_ok k ha.ne', Bind.bind, Except.bind, Except.ok.injEq] at hp
    exact hp.symm
  subst e1 e2
  have hd : 0 ≤ dopplerWidth k amu T r0.er := by unfold dopplerWidth; positivity
  exact ⟨rfl, rfl, hpe, pv_sigma ⟨hpos.le, hd, Or.inl hpos⟩ rfl rfl⟩

/-- C126 is false of the code: if the natural width of the excited state is at least twice the Doppler-broadened full width at
half maximum `2 √(ln 2) Δ` (at any temperature, also zero), then at the resonance energy the pseudo-Voigt cross section is
larger than the Voigt cross section by at least 40 %. -/
theorem C126_refuted {k : PhysConst} {init inter : Level} {final : Option Level} {amu T w : ℝ} {v p : Reso}
    (hv : mkVoigt k init inter amu T final = .ok v) (hp : mkPseudoVoigt k init inter amu T final = .ok p)
    (ha : 0 < amu) (hT : 0 ≤ T) (hE : init.exc < inter.exc) (hw : inter.width = .ok w) (hpos : 0 < w) (hI : 0 < v.ics)
    (hle : 2 * Real.sqrt (Real.log 2) * dopplerWidth k amu T v.er ≤ w / 2) :
    ∃ σv σp : ℝ → ℝ, v.HasSigma σv ∧ p.HasSigma σp ∧ 0 < σv v.er ∧ 1.4 * σv v.er ≤ σp v.er := by
  obtain ⟨h1, h2, h3, h4⟩ := doppler_shapes hv hp ha hE hw hpos
  have hd : 0 ≤ dopplerWidth k amu T v.er := by unfold dopplerWidth; positivity
  have hw2 : 0 < w / 2 := by linarith
  obtain ⟨b1, b2⟩ := coldVoigt_le v.er hw2 (s := dopplerWidth k amu T v.er / Real.sqrt 2) (by positivity) v.er
  refine ⟨_, _, voigt_sigma hv ha hT hE hw hpos, h4, mul_pos hI b1, ?_⟩
  have hpk := pv_peak_broad v.er hpos hd hle
  rw [coldVoigt_zero] at b2
  have e : cauchyPdf v.er (w / 2) v.er = 2 / (Real.pi * w) := by
    unfold cauchyPdf
    simp
    field_simp
  rw [e] at b2
  have := mul_le_mul_of_nonneg_left ((mul_le_mul_of_nonneg_left b2 (by norm_num : (0 : ℝ) ≤ 1.4)).trans hpk) hI.le
  linarith

/-- The hypotheses of `C126_refuted` hold for a state of 4 eV width at temperature zero and at temperatures above zero. -/
example : ∃ T, 0 < T ∧ ∃ v p, mkVoigt exConst exGround exExcited 11 T none = .ok v ∧
    mkPseudoVoigt exConst exGround exExcited 11 T none = .ok p ∧ exGround.exc < exExcited.exc ∧ exExcited.width = .ok 4 ∧
    2 * Real.sqrt (Real.log 2) * dopplerWidth exConst 11 T v.er ≤ 4 / 2 := by
  have hc : Continuous fun T => 2 * Real.sqrt (Real.log 2) * dopplerWidth exConst 11 T 2 := by unfold dopplerWidth; fun_prop
  have h0 : (fun T => 2 * Real.sqrt (Real.log 2) * dopplerWidth exConst 11 T 2) 0 < 4 / 2 := by norm_num [dopplerWidth]
  have ev : ∀ᶠ T in nhdsWithin 0 (Set.Ioi 0), 2 * Real.sqrt (Real.log 2) * dopplerWidth exConst 11 T 2 < 4 / 2 :=
    nhdsWithin_le_nhds (hc.continuousAt.eventually (gt_mem_nhds h0))
  obtain ⟨T, h, hT⟩ := (ev.and self_mem_nhdsWithin).exists
  obtain ⟨p, hp, -⟩ := exPseudoVoigt T
  obtain ⟨v, hv, -⟩ := exVoigt T
  have e : v.er = 2 := by rw [(mkVoigt_same hv hv).2.2]; norm_num [exGround, exExcited, groundState, state]
  exact ⟨T, hT, v, p, hv, hp, by norm_num [exGround, exExcited, groundState, state], exExcited_width, by rw [e]; exact le_of_lt h⟩

/-- C126, the part that holds: at every energy, both cross sections differ from the Gauss cross section of the same states
by at most a multiple of the ratio of natural width and Doppler width, relative to the maximum of the Gauss cross section.
So does the difference between the two: the approximation is exact in the limit of a narrow resonance, and below 1.2 % of the
maximum as soon as the Doppler width is at least 250 times the natural width. -/
theorem C126_partial {k : PhysConst} {init inter : Level} {final : Option Level} {amu T w : ℝ} {v p b : Reso}
    (hv : mkVoigt k init inter amu T final = .ok v) (hp : mkPseudoVoigt k init inter amu T final = .ok p)
    (hb : mkGauss k init inter amu T final = .ok b)
    (ha : 0 < amu) (hT : 0 < T) (hE : init.exc < inter.exc) (hw : inter.width = .ok w) (hpos : 0 < w) (hI : 0 ≤ b.ics) :
    ∃ σv σp σb : ℝ → ℝ, v.HasSigma σv ∧ p.HasSigma σp ∧ b.HasSigma σb ∧ ∀ E,
      |σv E - σb E| ≤ 1.1 * (w / dopplerWidth k amu T b.er) * σb b.er ∧
      |σp E - σb E| ≤ 1.8 * (w / dopplerWidth k amu T b.er) * σb b.er ∧
      |σp E - σv E| ≤ 2.9 * (w / dopplerWidth k amu T b.er) * σb b.er ∧
      (250 * w ≤ dopplerWidth k amu T b.er → |σp E - σv E| ≤ 0.012 * σb b.er) := by
  obtain ⟨h1, h2, h3, h4⟩ := doppler_shapes hv hp ha hE hw hpos
  have hbv : v.er = b.er ∧ v.ics = b.ics ∧ b.dist = normDist ∧ b.params = [b.er, dopplerWidth k amu T b.er / Real.sqrt 2] := by
    obtain ⟨b0, hb0, -, e⟩ := mkGauss_inv hb
    obtain ⟨r0, d, ps, hr0, -, e'⟩ := build_inv (s := .voigt amu T) hv
    have h1 : mkResonance k init inter final noRecoil = .ok r0 := hr0
    rw [h1] at hb0; cases hb0
    rw [e, e']; exact ⟨rfl, rfl, rfl, rfl⟩
  obtain ⟨e1, e2, e3, e4⟩ := hbv
  have hd := dopplerWidth_pos k ha hT h3
  have hw2 : 0 < w / 2 := by linarith
  have hvs := voigt_sigma hv ha hT.le hE hw hpos
  rw [e1] at h3 h4 hd hvs
  rw [e2] at h4 hvs
  set D := dopplerWidth k amu T b.er with hD
  have hs : 0 < D / Real.sqrt 2 := by positivity
  refine ⟨_, _, _, hvs, h4, (analytic_norm e3 e4 hs).sigma, fun E => ?_⟩
  have a1 := voigt_near_norm b.er hs hw2 E
  have a2 := pv_near_norm b.er hpos hd E
  rw [coldVoigt_eq b.er E _ hs] at a1
  set P := normPdf b.er (D / Real.sqrt 2) b.er with hP
  have hP0 : 0 < P := normPdf_pos hs _ _
  have hr : 1.5 * (w / 2 / (D / Real.sqrt 2)) ≤ 1.1 * (w / D) := by
    have hsq : Real.sqrt 2 ≤ 1.45 := Real.sqrt_le_iff.2 ⟨by norm_num, by norm_num⟩
    have e : 1.5 * (w / 2 / (D / Real.sqrt 2)) = 1.5 / 2 * Real.sqrt 2 * (w / D) := by field_simp
    rw [e]
    have : 0 < w / D := by positivity
    exact mul_le_mul_of_nonneg_right (by linarith) this.le
  have a1' := a1.trans (mul_le_mul_of_nonneg_right hr hP0.le)
  generalize coldVoigt b.er (w / 2) E (D / Real.sqrt 2) = cv at *
  generalize (mkPV b.er w D).pdfR E = cp at *
  generalize normPdf b.er (D / Real.sqrt 2) E = cn at *
  have k1 : |b.ics * cv - b.ics * cn| ≤ 1.1 * (w / D) * (b.ics * P) := by
    rw [← mul_sub, abs_mul, abs_of_nonneg hI]
    exact (mul_le_mul_of_nonneg_left a1' hI).trans (le_of_eq (by ring))
  have k2 : |b.ics * cp - b.ics * cn| ≤ 1.8 * (w / D) * (b.ics * P) := by
    rw [← mul_sub, abs_mul, abs_of_nonneg hI]
    exact (mul_le_mul_of_nonneg_left a2 hI).trans (le_of_eq (by ring))
  have k3 : |b.ics * cp - b.ics * cv| ≤ 2.9 * (w / D) * (b.ics * P) := by
    have := abs_sub_le (b.ics * cp) (b.ics * cn) (b.ics * cv)
    rw [abs_sub_comm (b.ics * cn)] at this
    linarith
  refine ⟨k1, k2, k3, fun h => k3.trans (mul_le_mul_of_nonneg_right ?_ (by positivity))⟩
  have : w / D ≤ 1 / 250 := by rw [div_le_div_iff₀ hd (by norm_num)]; linarith
  linarith

example : ∃ v p b, mkVoigt exConst exGround exExcited 11 293 none = .ok v ∧
    mkPseudoVoigt exConst exGround exExcited 11 293 none = .ok p ∧ mkGauss exConst exGround exExcited 11 293 none = .ok b ∧
    exGround.exc < exExcited.exc ∧ exExcited.width = .ok 4 := by
  obtain ⟨p, hp, -⟩ := exPseudoVoigt 293
  obtain ⟨v, hv, -⟩ := exVoigt 293
  obtain ⟨b, hb, -⟩ := exGauss
  exact ⟨v, p, b, hv, hp, hb, by norm_num [exGround, exExcited, groundState, state], exExcited_width⟩

end Ries
