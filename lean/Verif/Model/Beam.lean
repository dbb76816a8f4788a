import Verif.Model.Notebooks

/-! # Model of the class `BeamInTarget` in `tests/test_Phi_alpha_plot.py` -/

namespace Ries

/-- `BeamInTarget`, `tests/test_Phi_alpha_plot.py:24-27`: resonant and nonresonant cross section -/
structure BeamInTarget where
  sigma : Callable
  kappa : Callable

namespace BeamInTarget

/-- `photon_flux_density(self, Z, E)`, `tests/test_Phi_alpha_plot.py:29-30`, at one depth and energy -/
noncomputable def photonFluxDensity (b : BeamInTarget) (Z E : ℝ) : Except Err ℝ := do
  let k ← b.kappa E
  let s ← b.sigma E
  .ok (Real.exp (-(k + s) * Z))

/-- `resonance_absorption_density(self, Z, E)`, `tests/test_Phi_alpha_plot.py:32-33` -/
noncomputable def resonanceAbsorptionDensity (b : BeamInTarget) (Z E : ℝ) : Except Err ℝ := do
  let s ← b.sigma E
  let p ← b.photonFluxDensity Z E
  .ok (s * p)

end BeamInTarget

/-- A resonance as a function on numbers; infinite or undefined values are reported as `runtimeError` (they do not occur for the
resonances in the theorems). -/
noncomputable def Reso.callable (r : Reso) : Callable := fun E =>
  match r.call E with
  | .ok (.fin v) => .ok v
  | .ok _ => .error .runtimeError
  | .error e => .error e

end Ries
