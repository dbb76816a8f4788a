import Verif.Spec.DocFormulas
import Verif.Props.KleinNishina
import Verif.Props.Debye
import Verif.Props.State
import Verif.Props.PseudoVoigt
import Mathlib.Analysis.SpecialFunctions.Gaussian.GaussianIntegral

/-! # C141: formulas in the documentation -/

namespace Ries

open KN

/-- C141, Compton scattering on Z electrons: total, solid-angle and scattering-angle differential cross sections, scattered energy
and Compton edge are given by the documented formulas, the cross sections multiplied by Z. -/
theorem C141_compton_partial (k : PhysConst) (Z : ℝ) {E : ℝ} (hE : 0 < E) :
    (electron k Z).total k E = Z * DocFormula.comptonTotal k.alpha k.hbarc k.me E ∧
    comptonEdge k E = DocFormula.comptonEdge k.me E ∧
    ∀ θ, EpOverE k E θ * E = DocFormula.comptonEnergy k.me E θ ∧
      (∀ φ, (electron k Z).dOmega k E θ φ =
        Z * DocFormula.comptonOmega k.alpha k.hbarc k.me E (DocFormula.comptonEnergy k.me E θ) θ φ) ∧
      (electron k Z).dTheta k E θ =
        Z * DocFormula.comptonTheta k.alpha k.hbarc k.me E (DocFormula.comptonEnergy k.me E θ) θ := by
  have hm := k.me_pos
  have hr : ∀ θ, DocFormula.comptonEnergy k.me E θ / E = EpOverE k E θ := by
    intro θ
    unfold DocFormula.comptonEnergy EpOverE
    field_simp
  have hr' : ∀ θ, E / DocFormula.comptonEnergy k.me E θ = 1 / EpOverE k E θ := by
    intro θ
    rw [← hr θ, one_div_div]
  refine ⟨?_, ?_, fun θ => ⟨?_, fun φ => ?_, ?_⟩⟩
  · unfold KN.total DocFormula.comptonTotal electron KN.scale
    simp only [zpow_neg, one_div]
    norm_cast
    ring
  · unfold KN.comptonEdge EpOverE DocFormula.comptonEdge
    rw [Real.cos_pi]
    ring
  · unfold DocFormula.comptonEnergy EpOverE
    ring
  · unfold KN.dOmega DocFormula.comptonOmega KN.scale electron
    rw [hr, hr']
    simp only
    ring
  · unfold KN.dTheta KN.dOmegaUnpol DocFormula.comptonTheta KN.scale electron
    rw [hr, hr']
    simp only
    ring

/-- C141, energy-differential Compton cross section: the documented formula lacks a division by the mass. -/
theorem C141_compton_energy_partial (k : PhysConst) (Z : ℝ) {E : ℝ} (hE : 0 < E) (θ : ℝ) :
    (electron k Z).dEp k E (DocFormula.comptonEnergy k.me E θ) =
      Z * DocFormula.comptonEp k.alpha k.hbarc E (DocFormula.comptonEnergy k.me E θ) θ / k.me := by
  have hm := k.me_pos
  have hD : 0 < 1 + E / k.me * (1 - Real.cos θ) := by
    have := Real.cos_le_one θ
    have : 0 ≤ E / k.me * (1 - Real.cos θ) := mul_nonneg (by positivity) (by linarith)
    linarith
  have hEp : 0 < DocFormula.comptonEnergy k.me E θ := div_pos hE hD
  have hc : 1 - (E / DocFormula.comptonEnergy k.me E θ - 1) * k.me / E = Real.cos θ := by
    unfold DocFormula.comptonEnergy
    field_simp
    ring
  have hcos : Real.cos (theta k E (DocFormula.comptonEnergy k.me E θ)) = Real.cos θ := by
    unfold theta
    rw [hc, Real.cos_arccos (Real.neg_one_le_cos θ) (Real.cos_le_one θ)]
  have hsin : Real.sin (theta k E (DocFormula.comptonEnergy k.me E θ)) ^ 2 = Real.sin θ ^ 2 := by
    rw [Real.sin_sq, Real.sin_sq, hcos]
  have hr : EpOverE k E (theta k E (DocFormula.comptonEnergy k.me E θ)) = DocFormula.comptonEnergy k.me E θ / E := by
    unfold EpOverE DocFormula.comptonEnergy at *
    rw [hcos]
    field_simp
  unfold KN.dEp KN.dOmegaUnpol DocFormula.comptonEp KN.scale electron
  simp only
  rw [hr, hsin]
  generalize DocFormula.comptonEnergy k.me E θ = p at *
  field_simp

/-- C141, Debye model: the documented formula has T/T_D instead of its third power. -/
theorem C141_debye_partial {T TD : ℝ} (hT : 0 < T) (hD : 0 < TD) :
    debyeTemperature T TD = .ok ((T / TD) ^ 2 * DocFormula.debye T TD) := by
  unfold debyeTemperature DocFormula.debye
  rw [if_neg hD.ne', if_neg hT.ne']
  congr 1
  have : (fun t : ℝ => debyeIntegrand t) = fun t => t ^ 3 * (1 / (Real.exp t - 1) + 1 / 2) := by
    funext t
    unfold debyeIntegrand
    norm_num
  simp only [this]
  ring

/-- C141, thermal motion and recoil: Doppler width and recoil-corrected energy are given by the documented formulas. -/
theorem C141_thermal_partial (k : PhysConst) {amu : ℝ} (ha : 0 < amu) (T E : ℝ) :
    getDopplerWidth k amu T E = .ok (DocFormula.dopplerWidth (amu * k.u) (k.kB * 1e-6 * T) E) ∧
    freeNucleusRecoil k amu E = DocFormula.recoil (amu * k.u) E := by
  constructor
  · rw [getDopplerWidth_ok k ha.ne', dopplerWidth, DocFormula.dopplerWidth, mul_comm E]
    congr 4
    ring
  · unfold freeNucleusRecoil DocFormula.recoil
    rw [mul_assoc 2 amu k.u]
    ring

/-- C141, resonances: the energy-integrated cross section of an excitation is given by the documented formula (spins are half of
the numbers stored in the states). -/
theorem C141_integrated_partial (s : Shape) {k : PhysConst} {init inter : Level} {r : Reso} (h : s.build k init inter none = .ok r) :
    ∃ pw g0, inter.widths = some pw ∧ (init.Jpi, g0) ∈ pw ∧
      r.ics = DocFormula.integrated k.hbarc r.er (inter.twoJ / 2) (init.twoJ / 2) g0 := by
  obtain ⟨pw, g0, hpw, hg, hi, hb, -⟩ := C23_formula s h
  refine ⟨pw, g0, hpw, hg, ?_⟩
  rw [hi, hb rfl, DocFormula.integrated]
  ring_nf

/-- mass of the documented velocity distribution -/
theorem velocity_integral {m kT : ℝ} (hm : 0 < m) (hk : 0 < kT) : ∫ v, DocFormula.velocity m kT v = Real.sqrt (2 * kT / m) := by
  have e : DocFormula.velocity m kT = fun v => Real.sqrt (m / (2 * Real.pi * kT)) * Real.exp (-((m / (2 * kT)) ^ 2) * v ^ 2) := by
    funext v
    unfold DocFormula.velocity
    congr 2
    ring
  have hpi := Real.pi_pos
  rw [e, MeasureTheory.integral_const_mul, integral_gaussian, ← Real.sqrt_mul (by positivity)]
  congr 1
  field_simp

/-- C141 is false of the code: (1) the energy-differential Compton cross section differs from the documented formula in every
system of units in which the electron mass is not 1, at every energy and angle; (2) the effective temperature of the Debye model does whenever T ≠ T_D;
(3) the documented velocity distribution is not normalized unless 2 k T = m c²; (4) the pseudo-Voigt distribution differs at the
resonance energy even without a natural width, since the documented normal distribution is centred at zero. -/
theorem C141_refuted :
    (∀ k : PhysConst, k.me ≠ 1 → ∀ Z, 0 < Z → ∀ E, 0 < E → ∀ θ, (electron k Z).dEp k E (DocFormula.comptonEnergy k.me E θ) ≠
      Z * DocFormula.comptonEp k.alpha k.hbarc E (DocFormula.comptonEnergy k.me E θ) θ) ∧
    (∀ T TD : ℝ, 0 < T → 0 < TD → T ≠ TD → debyeTemperature T TD ≠ .ok (DocFormula.debye T TD)) ∧
    (∀ m kT : ℝ, 0 < m → 0 < kT → 2 * kT ≠ m → ∫ v, DocFormula.velocity m kT v ≠ 1) ∧
    (∀ er d : ℝ, er ≠ 0 → 0 < d → (mkPV er 0 d).toDist.pdf [] er ≠
      .ok (.fin (DocFormula.pseudoVoigt (mkPV er 0 d).eta er (d / Real.sqrt 2) 0 er))) := by
  refine ⟨?_, ?_, ?_, ?_⟩
  · intro k hk Z hZ E hE θ h
    have hm := k.me_pos
    rw [C141_compton_energy_partial k Z hE θ] at h
    have hpos : 0 < (electron k Z).dEp k E (DocFormula.comptonEnergy k.me E θ) := by
      have h3 := (C44_differential_nonneg k (electron k Z) hZ hm E hE).2.1
      have hD : 0 < 1 + E / k.me * (1 - Real.cos θ) := by
        have := Real.cos_le_one θ
        have : 0 ≤ E / k.me * (1 - Real.cos θ) := mul_nonneg (by positivity) (by linarith)
        linarith
      have hEp : 0 < DocFormula.comptonEnergy k.me E θ := div_pos hE hD
      unfold KN.dEp
      have := h3 (theta k E (DocFormula.comptonEnergy k.me E θ))
      positivity
    rw [C141_compton_energy_partial k Z hE θ] at hpos
    rw [h] at hpos
    rw [div_eq_iff hm.ne'] at h
    exact hk (mul_left_cancel₀ hpos.ne' (by rw [mul_one]; exact h.symm))
  · intro T TD hT hD hne h
    obtain ⟨Te, h1, h2, -⟩ := C36_bounds hT hD
    have hTe : 0 < Te := lt_trans (lt_max_of_lt_left hT) h2
    rw [h1] at h
    have h3 := C141_debye_partial hT hD
    rw [h1] at h3
    simp only [Except.ok.injEq] at h h3
    rw [← h] at h3
    have h4 : (T / TD) ^ 2 = 1 := by
      have := mul_right_cancel₀ hTe.ne' (by rw [one_mul]; exact h3.symm : (T / TD) ^ 2 * Te = 1 * Te)
      exact this
    have h5 : T / TD = 1 := by
      have : 0 < T / TD := by positivity
      nlinarith
    rw [div_eq_one_iff_eq hD.ne'] at h5
    exact hne h5
  · intro m kT hm hk hne h
    rw [velocity_integral hm hk, Real.sqrt_eq_one, div_eq_one_iff_eq hm.ne'] at h
    exact hne h
  · intro er d her hd h
    obtain ⟨he, hs⟩ := mkPV_width_zero er hd
    have hok : PV.Ok 0 d := ⟨le_rfl, hd.le, Or.inr hd⟩
    have hσ : 0 < d / Real.sqrt 2 := by positivity
    simp only [PV.toDist, PV.pdf, if_pos (hok.valid (er := er)), if_true, Except.ok.injEq, Fl.fin.injEq, PV.pdfR, he, hs, DocFormula.pseudoVoigt, sub_zero,
      one_mul, zero_mul, add_zero] at h
    have e : (mkPV er 0 d).er = er := rfl
    rw [e] at h
    unfold normPdf DocFormula.normal at h
    have hp : 0 < d / Real.sqrt 2 * Real.sqrt (2 * Real.pi) := by positivity
    rw [div_left_inj' hp.ne', Real.exp_eq_exp] at h
    rw [sub_self, zero_div, sub_zero] at h
    have h2 : 0 < (er / (d / Real.sqrt 2)) ^ 2 := by
      have : er / (d / Real.sqrt 2) ≠ 0 := div_ne_zero her hσ.ne'
      positivity
    norm_num at h
    linarith

/-- the hypotheses of `C141_refuted` are met by the CODATA electron mass and typical temperatures -/
example : (0.51099895 : ℝ) ≠ 1 ∧ (293 : ℝ) ≠ 1362 ∧ 2 * (8.617e-11 * 293 : ℝ) ≠ 11 * 931.494 := by norm_num

end Ries
