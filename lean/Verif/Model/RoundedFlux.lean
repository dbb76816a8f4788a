import Verif.Model.Beam
import Verif.Model.RoundedReso

/-! # Photon flux and rates of the notebooks and tests in rounded arithmetic

`A.fl` rounds the result of an arithmetic operation, `A.exp` is the computed exponential function. Changes of sign are exact. The cross
sections are arbitrary functions (the computed ones). -/

namespace Ries.RArith

variable (A : RArith)

/-- `Phi(E, rho, sigma_nr, sigma_r, abundance)`, `notebooks/layer_target.ipynb:331-351`, operation by operation -/
noncomputable def layerPhi (E rho : ℝ) (nr r : Callable) (x : ℝ) : Except Err ℝ := do
  let a ← nr E
  let b ← r E
  .ok (A.exp (A.fl (-(A.fl (a + A.fl (x * b))) * rho)))

/-- `alpha(E, rho, sigma_nr, sigma_r, abundance)`, `notebooks/layer_target.ipynb:425-434`, operation by operation -/
noncomputable def layerAlpha (E rho : ℝ) (nr r : Callable) (x : ℝ) : Except Err ℝ := do
  let b ← r E
  let p ← A.layerPhi E rho nr r x
  .ok (A.fl (A.fl (x * b) * p))

/-- `BeamInTarget.photon_flux_density(Z, E)`, `tests/test_Phi_alpha_plot.py:29-30`, operation by operation -/
noncomputable def beamFlux (b : BeamInTarget) (Z E : ℝ) : Except Err ℝ := do
  let k ← b.kappa E
  let s ← b.sigma E
  .ok (A.exp (A.fl (-(A.fl (k + s)) * Z)))

/-- `BeamInTarget.resonance_absorption_density(Z, E)`, `tests/test_Phi_alpha_plot.py:32-33` -/
noncomputable def beamAbsorption (b : BeamInTarget) (Z E : ℝ) : Except Err ℝ := do
  let s ← b.sigma E
  let p ← A.beamFlux b Z E
  .ok (A.fl (s * p))

/-- `rho_I`, ..., `rho_IV`, `notebooks/layer_target.ipynb:285-288`: the boundaries of the layers (`rho_0` is 0) -/
noncomputable def rhoI (t : LayerTarget) : ℝ := A.fl (t.rho0 + t.dI)
/-- l.286 -/
noncomputable def rhoII (t : LayerTarget) : ℝ := A.fl (A.rhoI t + t.dII)
/-- l.287 -/
noncomputable def rhoIII (t : LayerTarget) : ℝ := A.fl (A.rhoII t + t.dIII)

/-- `dN_dE_drho_I`, `notebooks/layer_target.ipynb:575-586` -/
noncomputable def dNI (t : LayerTarget) (E rho : ℝ) : Except Err ℝ :=
  A.layerAlpha E (A.fl (rho - t.rho0)) t.nr t.s116 t.x116

/-- `dN_dE_drho_II`, l.588-596 -/
noncomputable def dNII (t : LayerTarget) (E rho : ℝ) : Except Err ℝ := do
  let p1 ← A.layerPhi E (A.fl (A.rhoI t - t.rho0)) t.nr t.s116 t.x116
  let a ← A.layerAlpha E (A.fl (rho - A.rhoI t)) t.nr t.s112 t.x112
  .ok (A.fl (p1 * a))

/-- `dN_dE_drho_III`, l.598-607 -/
noncomputable def dNIII (t : LayerTarget) (E rho : ℝ) : Except Err ℝ := do
  let p1 ← A.layerPhi E (A.fl (A.rhoI t - t.rho0)) t.nr t.s116 t.x116
  let p2 ← A.layerPhi E (A.fl (A.rhoII t - A.rhoI t)) t.nr t.s112 t.x112
  let a ← A.layerAlpha E (A.fl (rho - A.rhoII t)) t.nr t.s116 t.x116
  .ok (A.fl (A.fl (p1 * p2) * a))

/-- `dN_dE_drho_IV`, l.609-620 -/
noncomputable def dNIV (t : LayerTarget) (E rho : ℝ) : Except Err ℝ := do
  let p1 ← A.layerPhi E (A.fl (A.rhoI t - t.rho0)) t.nr t.s116 t.x116
  let p2 ← A.layerPhi E (A.fl (A.rhoII t - A.rhoI t)) t.nr t.s112 t.x112
  let p3 ← A.layerPhi E (A.fl (A.rhoIII t - A.rhoII t)) t.nr t.s116 t.x116
  let a ← A.layerAlpha E (A.fl (rho - A.rhoIII t)) t.nr t.s112 t.x112
  .ok (A.fl (A.fl (A.fl (p1 * p2) * p3) * a))

end Ries.RArith

namespace Ries

/-- a cross section as a function on numbers; infinite or undefined values are reported as `runtimeError` (they do not occur in the theorems) -/
def finiteValues (f : ℝ → Except Err Fl) : Callable := fun E =>
  match f E with
  | .ok (.fin v) => .ok v
  | .ok _ => .error .runtimeError
  | .error e => .error e

end Ries
