import Verif.Props.Voigt
import Mathlib.Probability.Distributions.Gaussian.Real

/-!
# C75: thermal Doppler broadening

Nuclei of mass `m` in a gas of temperature `T` have a normally distributed velocity `v = β c` along the
beam, with the variance `k_B T / (m c²)` of `β`.  Seen from a nucleus with this velocity, the resonance
is shifted from `E_r` to `E_r (1 + β)`.
-/

open MeasureTheory ProbabilityTheory

namespace Ries

/-- The distribution of the velocity (in units of the speed of light) in one direction of nuclei of mass
`amu` (atomic mass units) in an ideal gas of temperature `T` (kelvin): variance `k_B T / (m c²)`. -/
noncomputable def thermalBeta (k : PhysConst) (amu T : ℝ) : Measure ℝ :=
  gaussianReal 0 (Real.toNNReal (k.kB * 1e-6 * T / (amu * k.u)))

theorem dopplerScale_sq (k : PhysConst) {amu T er : ℝ} (ha : 0 < amu) (hT : 0 < T) :
    (dopplerWidth k amu T er / Real.sqrt 2) ^ 2 = er ^ 2 * (k.kB * 1e-6 * T / (amu * k.u)) := by
  have := k.kB_pos
  have := k.u_pos
  unfold dopplerWidth
  rw [div_pow, mul_pow, Real.sq_sqrt (by positivity), Real.sq_sqrt (by norm_num)]
  field_simp

/-- The distribution of the Doppler shifts `E_r β`. -/
theorem thermal_shift (k : PhysConst) {amu T er : ℝ} (ha : 0 < amu) (hT : 0 < T) :
    (thermalBeta k amu T).map (er * ·) =
      gaussianReal 0 (Real.toNNReal ((dopplerWidth k amu T er / Real.sqrt 2) ^ 2)) := by
  have := k.kB_pos
  have := k.u_pos
  have h0 : 0 ≤ k.kB * 1e-6 * T / (amu * k.u) := by positivity
  rw [thermalBeta, gaussianReal_map_const_mul, mul_zero, dopplerScale_sq k ha hT]
  congr 1
  apply NNReal.coe_injective
  rw [Real.coe_toNNReal _ (by positivity), NNReal.coe_mul, Real.coe_toNNReal _ h0]
  rfl

/-- C75 for the Gauss shape: the integral of the cross section over any range of photon energies is the
energy-integrated cross section times the probability that a nucleus of the thermal gas has its Doppler
shifted resonance energy in that range. -/
theorem C75_gauss {k : PhysConst} {init inter : Level} {final : Option Level} {amu T : ℝ} {r : Reso}
    (hr : mkGauss k init inter amu T final = .ok r) (ha : 0 < amu) (hT : 0 < T)
    (hE : init.exc < inter.exc) :
    ∃ σ, r.HasSigma σ ∧ ∀ a b, a ≤ b → ∫ E in a..b, σ E =
      r.ics * (thermalBeta k amu T).real {β | r.er * (1 + β) ∈ Set.Icc a b} := by
  obtain ⟨r0, hr0, -, rfl⟩ := mkGauss_inv hr
  have her := (mkResonance_inv hr0).1
  have hpe : 0 < r0.er := by rw [her]; unfold noRecoil; linarith
  have hs : 0 < dopplerWidth k amu T r0.er / Real.sqrt 2 := by
    have := dopplerWidth_pos k ha hT hpe
    positivity
  refine ⟨_, (analytic_norm rfl rfl hs).sigma, fun a b hab => ?_⟩
  simp only
  rw [intervalIntegral.integral_const_mul]
  congr 1
  have hm : (thermalBeta k amu T).map (fun β => r0.er * (1 + β)) =
      gaussianReal r0.er (Real.toNNReal ((dopplerWidth k amu T r0.er / Real.sqrt 2) ^ 2)) := by
    have e : (fun β => r0.er * (1 + β)) = (r0.er + ·) ∘ (r0.er * ·) := by
      funext β
      simp only [Function.comp]
      ring
    rw [e, ← Measure.map_map (by fun_prop) (by fun_prop), thermal_shift k ha hT,
      gaussianReal_map_const_add, zero_add]
  have hpre : {β | r0.er * (1 + β) ∈ Set.Icc a b} = (fun β => r0.er * (1 + β)) ⁻¹' Set.Icc a b := rfl
  rw [hpre, Measure.real, ← Measure.map_apply (by fun_prop) measurableSet_Icc, hm,
    gaussianReal_apply_eq_integral _ (by
      have : 0 < (dopplerWidth k amu T r0.er / Real.sqrt 2) ^ 2 := by positivity
      simpa using this.ne'), ENNReal.toReal_ofReal
      (setIntegral_nonneg measurableSet_Icc fun x _ => gaussianPDFReal_nonneg _ _ _),
    intervalIntegral.integral_of_le hab, integral_Icc_eq_integral_Ioc]
  exact integral_congr_ae (Filter.Eventually.of_forall fun x => normPdf_eq _ hs x)

example : ∃ r, mkGauss exConst exGround exExcited 11 293 none = .ok r ∧ (0 : ℝ) < 11 ∧ (0 : ℝ) < 293 ∧
    exGround.exc < exExcited.exc := by
  obtain ⟨r, h, -⟩ := exResonance
  refine ⟨{ r with dist := normDist, params := [r.er, dopplerWidth exConst 11 293 r.er / Real.sqrt 2] },
    ?_, by norm_num, by norm_num, by norm_num [exGround, exExcited, groundState, state]⟩
  simp [mkGauss, h, getDopplerWidth_ok exConst (show (11 : ℝ) ≠ 0 by norm_num), bind, Except.bind]

/-- C75 for the Voigt shape: the cross section is the mean, over the velocities of the thermal gas, of
the Breit-Wigner cross section of a nucleus with the Doppler shifted resonance energy. -/
theorem C75_voigt {k : PhysConst} {init inter : Level} {final : Option Level} {amu T w : ℝ}
    {r b : Reso} (hr : mkVoigt k init inter amu T final = .ok r)
    (hb : mkBreitWigner k init inter final = .ok b) (ha : 0 < amu) (hT : 0 < T)
    (hE : init.exc < inter.exc) (hw : inter.width = .ok w) (hpos : 0 < w) :
    ∃ σ τ, r.HasSigma σ ∧ b.HasSigma τ ∧
      ∀ E, σ E = ∫ β, τ (E - b.er * β) ∂(thermalBeta k amu T) := by
  obtain ⟨σ, hσ, hc, -⟩ := C35_convolution hr ha hT hE hw hpos
  obtain ⟨b0, w', hb0, hw', rfl⟩ := mkBreitWigner_inv hb
  rw [hw] at hw'; cases hw'
  obtain ⟨r0, d, ps, hr0, hd, rfl⟩ := build_inv (s := .voigt amu T) hr
  obtain rfl : b0 = r0 := by
    have h1 : mkResonance k init inter final noRecoil = .ok r0 := hr0
    rw [h1] at hb0
    simpa using hb0.symm
  have her := (mkResonance_inv hb0).1
  have hpe : 0 < b0.er := by rw [her]; unfold noRecoil; linarith
  have hs : 0 < dopplerWidth k amu T b0.er / Real.sqrt 2 := by
    have := dopplerWidth_pos k ha hT hpe
    positivity
  have hg : (0 : ℝ) < 0.5 * w := by linarith
  have hτ := (analytic_cauchy (r := { b0 with dist := cauchyDist, params := [b0.er, 0.5 * w] })
    (l := b0.er) (s := 0.5 * w) rfl rfl hg).sigma
  refine ⟨σ, _, hσ, hτ, fun E => ?_⟩
  rw [hc]
  simp only
  have hcont : Continuous (cauchyPdf b0.er (0.5 * w)) := (cauchy_good b0.er hg).cont
  have e : ∫ β, b0.ics * cauchyPdf b0.er (0.5 * w) (E - b0.er * β) ∂(thermalBeta k amu T) =
      ∫ t, b0.ics * cauchyPdf b0.er (0.5 * w) (E - t) ∂((thermalBeta k amu T).map (b0.er * ·)) := by
    rw [integral_map (by fun_prop)]
    exact (continuous_const.mul (hcont.comp (continuous_const.sub continuous_id))).aestronglyMeasurable
  rw [e, thermal_shift k ha hT, integral_gaussianReal_eq_integral_smul (by
      have : 0 < (dopplerWidth k amu T b0.er / Real.sqrt 2) ^ 2 := by positivity
      simpa using this.ne'), ← integral_const_mul]
  refine integral_congr_ae (Filter.Eventually.of_forall fun t => ?_)
  simp only [smul_eq_mul]
  rw [← normPdf_eq _ hs, show w / 2 = 0.5 * w by ring]
  ring

example : ∃ r b, mkVoigt exConst exGround exExcited 11 293 none = .ok r ∧
    mkBreitWigner exConst exGround exExcited none = .ok b ∧ exExcited.width = .ok 4 := by
  obtain ⟨r, h, -⟩ := exVoigt 293
  obtain ⟨b, hb, -⟩ := exBreitWigner
  exact ⟨r, b, h, hb, exExcited_width⟩

end Ries
