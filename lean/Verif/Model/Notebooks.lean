import Verif.Model.PseudoVoigt
import Mathlib.MeasureTheory.Integral.IntervalIntegral.Basic

/-! # Models of the functions in `notebooks/layer_target.ipynb` and `notebooks/6Li.ipynb`

Line numbers are those of the notebook files. Numerical quadrature (`quad`, `nquad`) is modelled by the exact integral. -/

open MeasureTheory

namespace Ries

/-- a cross section that is only called on a number: `sigma_nr` and `sigma_r` in `layer_target.ipynb` -/
abbrev Callable := ℝ → Except Err ℝ

/-- `Phi(E, rho, sigma_nr, sigma_r, abundance)`, `notebooks/layer_target.ipynb:331-351` -/
noncomputable def layerPhi (E rho : ℝ) (nr r : Callable) (x : ℝ) : Except Err ℝ := do
  let a ← nr E
  let b ← r E
  .ok (Real.exp (-(a + x * b) * rho))

/-- `alpha(E, rho, sigma_nr, sigma_r, abundance)`, `notebooks/layer_target.ipynb:425-434` -/
noncomputable def layerAlpha (E rho : ℝ) (nr r : Callable) (x : ℝ) : Except Err ℝ := do
  let b ← r E
  let p ← layerPhi E rho nr r x
  .ok (x * b * p)

/-- Global variables of `notebooks/layer_target.ipynb`: the cross sections, the enrichments and the areal densities of the four
layers (l.69-92, 125-141, 214). -/
structure LayerTarget where
  nr : Callable
  s112 : Callable
  s116 : Callable
  x112 : ℝ
  x116 : ℝ
  dI : ℝ
  dII : ℝ
  dIII : ℝ
  dIV : ℝ

namespace LayerTarget

/-- `rho_0`, `notebooks/layer_target.ipynb:284` -/
def rho0 (_ : LayerTarget) : ℝ := 0
/-- `rho_I`, l.285 -/
noncomputable def rhoI (t : LayerTarget) : ℝ := t.rho0 + t.dI
/-- `rho_II`, l.286 -/
noncomputable def rhoII (t : LayerTarget) : ℝ := t.rhoI + t.dII
/-- `rho_III`, l.287 -/
noncomputable def rhoIII (t : LayerTarget) : ℝ := t.rhoII + t.dIII
/-- `rho_IV`, l.288 -/
noncomputable def rhoIV (t : LayerTarget) : ℝ := t.rhoIII + t.dIV

/-- `dN_dE_drho_I`, `notebooks/layer_target.ipynb:575-586` -/
noncomputable def dNI (t : LayerTarget) (E rho : ℝ) : Except Err ℝ :=
  layerAlpha E (rho - t.rho0) t.nr t.s116 t.x116

/-- `dN_dE_drho_II`, l.588-596 -/
noncomputable def dNII (t : LayerTarget) (E rho : ℝ) : Except Err ℝ := do
  let p1 ← layerPhi E (t.rhoI - t.rho0) t.nr t.s116 t.x116
  let a ← layerAlpha E (rho - t.rhoI) t.nr t.s112 t.x112
  .ok (p1 * a)

/-- `dN_dE_drho_III`, l.598-607 -/
noncomputable def dNIII (t : LayerTarget) (E rho : ℝ) : Except Err ℝ := do
  let p1 ← layerPhi E (t.rhoI - t.rho0) t.nr t.s116 t.x116
  let p2 ← layerPhi E (t.rhoII - t.rhoI) t.nr t.s112 t.x112
  let a ← layerAlpha E (rho - t.rhoII) t.nr t.s116 t.x116
  .ok (p1 * p2 * a)

/-- `dN_dE_drho_IV`, l.609-620 -/
noncomputable def dNIV (t : LayerTarget) (E rho : ℝ) : Except Err ℝ := do
  let p1 ← layerPhi E (t.rhoI - t.rho0) t.nr t.s116 t.x116
  let p2 ← layerPhi E (t.rhoII - t.rhoI) t.nr t.s112 t.x112
  let p3 ← layerPhi E (t.rhoIII - t.rhoII) t.nr t.s116 t.x116
  let a ← layerAlpha E (rho - t.rhoIII) t.nr t.s112 t.x112
  .ok (p1 * p2 * p3 * a)

end LayerTarget

/-- the number returned by a call; 0 if there is none (excluded in the theorems) -/
noncomputable def valueOf (e : Except Err ℝ) : ℝ :=
  match e with
  | .ok v => v
  | .error _ => 0

/-- `nquad(f, [[a, b], [c, d]])[0]`: the first argument of `f` is the innermost integration variable -/
noncomputable def nquad2 (f : ℝ → ℝ → Except Err ℝ) (a b c d : ℝ) : ℝ :=
  ∫ rho in c..d, ∫ E in a..b, valueOf (f E rho)

/-- an entry of `count_rates`, `notebooks/layer_target.ipynb:485-494` -/
noncomputable def countRate (nr r : Callable) (x a b d : ℝ) : ℝ :=
  nquad2 (fun E rho => layerAlpha E rho nr r x) a b 0 d

/-- an entry of `count_rates_thin_target`, `notebooks/layer_target.ipynb:495-504` -/
noncomputable def countRateThin (nr r : Callable) (x a b d : ℝ) : ℝ :=
  nquad2 (fun E _ => layerAlpha E 0 nr r x) a b 0 d

namespace LayerTarget

/-- `N_116Sn_I`, `notebooks/layer_target.ipynb:638`; `a`, `b` are the two entries of `sn116_energy_range` (l.636) -/
noncomputable def rateI (t : LayerTarget) (a b : ℝ) : ℝ := nquad2 t.dNI a b t.rho0 t.rhoI

/-- `N_112Sn_II`, l.639; `a`, `b` are the two entries of `sn112_energy_range` (l.635) -/
noncomputable def rateII (t : LayerTarget) (a b : ℝ) : ℝ := nquad2 t.dNII a b t.rhoI t.rhoII

/-- `N_116Sn_III`, l.640 -/
noncomputable def rateIII (t : LayerTarget) (a b : ℝ) : ℝ := nquad2 t.dNIII a b t.rhoII t.rhoIII

/-- `N_112Sn_IV`, l.641 -/
noncomputable def rateIV (t : LayerTarget) (a b : ℝ) : ℝ := nquad2 t.dNIV a b t.rhoIII t.rhoIV

end LayerTarget

/-- The conversion of a half life in s to a width in MeV, `notebooks/layer_target.ipynb:55, 64, 85`; `hbar` is
`physical_constants['reduced Planck constant in eV s'][0]` -/
noncomputable def halfLifeWidth (hbar halfLife : ℝ) : ℝ := hbar / (halfLife * (1 / Real.log 2)) * 1e-6

/-- The areal densities in fm^-2, `notebooks/layer_target.ipynb:74-75, 91-92`, from the mass of the layer in kg, the mass of the isotope
in atomic mass units and the atomic mass constant in kg -/
noncomputable def layerArealDensity (mass amu u : ℝ) : ℝ := mass / (amu * u) / (Real.pi * (0.005e15) ^ 2)

/-! ## 6Li -/

/-- Global variables of `notebooks/6Li.ipynb` that the functions use: masses of 6Li, 7Li, carbon and oxygen, the atomic mass
constant in kg, and `li6_enrichment.mean()` (l.66-76, 108, 166-190). -/
structure Li6Data where
  m6 : ℝ
  m7 : ℝ
  mC : ℝ
  mO : ℝ
  u : ℝ
  meanEnrichment : ℝ

namespace Li6Data

/-- `molar_mass(enrichment)`, `notebooks/6Li.ipynb:148-169`. The body uses `li6_enrichment.mean()`, not the argument. -/
def molarMass (D : Li6Data) (_enrichment : ℝ) : ℝ :=
  2 * (D.meanEnrichment * D.m6 + (1 - D.meanEnrichment) * D.m7) + D.mC + 3 * D.mO

/-- `areal_density(mass, diameter, enrichment)`, `notebooks/6Li.ipynb:171-194`. The `ZeroDivisionError` for a zero
denominator is excluded in the theorems. -/
noncomputable def arealDensity (D : Li6Data) (mass diameter enrichment : ℝ) : ℝ :=
  2 * enrichment * mass / (D.molarMass enrichment * D.u * Real.pi * (0.5 * diameter * 1e15) ^ 2)

end Li6Data

/-- `sigma(energy, input_is_absolute_energy=False)` as a number -/
noncomputable def Reso.rel (r : Reso) (e : ℝ) : ℝ :=
  match r.call e false with
  | .ok (.fin v) => v
  | _ => 0

/-- `photon_flux_density(sigma, energy, rho)`, `notebooks/6Li.ipynb:196-213` -/
noncomputable def fluxDensity (r : Reso) (e rho : ℝ) : ℝ := Real.exp (-(r.rel e) * rho)

/-- `resonance_absorption_density(sigma, energy, rho)`, `notebooks/6Li.ipynb:215-232` -/
noncomputable def absorptionDensity (r : Reso) (e rho : ℝ) : ℝ := r.rel e * fluxDensity r e rho

/-- the ground state of 6Li in `R`, `notebooks/6Li.ipynb:467-489` -/
noncomputable def li6Ground : Level := groundState "1^+_1" 2 1

/-- the excited state of 6Li in `R`, with the width that is varied, `notebooks/6Li.ipynb:467-489` -/
noncomputable def li6Excited (Γ : ℝ) : Level := state "0^+_1" 0 1 3.56288 [("1^+_1", Γ)]

/-- The expression that `R` returns, `notebooks/6Li.ipynb:502-518`, for energy limits `a`, `b` relative to the resonance. -/
noncomputable def selfAbsorption (r : Reso) (rhoA rhoS a b : ℝ) : Except Err ℝ :=
  let num := ∫ e in a..b, fluxDensity r e rhoA * (1 - Real.exp (-(r.rel e) * rhoS))
  let den := ∫ e in a..b, 1 - Real.exp (-(r.rel e) * rhoS)
  if den = 0 then .error .zeroDivision else .ok (1 - num / den)

/-- `R(Gamma, absorber_mass, scatterer_mass, diameter, enrichment, effective_temperature, energy_coverage_interval)`,
`notebooks/6Li.ipynb:442-518`. Infinite energy limits are reported as `runtimeError` (excluded in the theorems). -/
noncomputable def li6R (k : PhysConst) (D : Li6Data) (Γ absMass scaMass diameter enrichment T cov : ℝ) : Except Err ℝ := do
  let r ← mkVoigt k li6Ground (li6Excited Γ) D.m6 T none
  let rhoA := D.arealDensity absMass diameter enrichment
  let rhoS := D.arealDensity scaMass diameter enrichment
  let ci ← r.coverageInterval cov
  match ci.lo, ci.hi with
  | .fin lo, .fin hi => selfAbsorption r rhoA rhoS (lo - (li6Excited Γ).exc) (hi - (li6Excited Γ).exc)
  | _, _ => .error .runtimeError

end Ries
