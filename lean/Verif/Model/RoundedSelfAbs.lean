import Verif.Model.RoundedFlux

/-! # The self absorption of `notebooks/6Li.ipynb` with numerical quadrature, in rounded arithmetic

`σ` is the computed cross section as a function of the energy relative to the resonance, `quad f a b` the first entry of the result of
`scipy.integrate.quad(f, a, b)`. -/

namespace Ries.RArith

variable (A : RArith)

/-- `photon_flux_density(sigma, energy, rho)`, `notebooks/6Li.ipynb:196-213`, operation by operation -/
noncomputable def fluxDensity (σ : ℝ → ℝ) (e rho : ℝ) : ℝ := A.exp (A.fl (-(σ e) * rho))

/-- `1.-np.exp(-sigma(energy, input_is_absolute_energy=False)*scatterer_areal_density)`, `notebooks/6Li.ipynb:507, 514` -/
noncomputable def absorbedShare (σ : ℝ → ℝ) (e rho : ℝ) : ℝ := A.fl (1 - A.exp (A.fl (-(σ e) * rho)))

/-- the expression that `R` returns, `notebooks/6Li.ipynb:502-518` -/
noncomputable def selfAbsorption (quad : (ℝ → ℝ) → ℝ → ℝ → ℝ) (σ : ℝ → ℝ) (rhoA rhoS a b : ℝ) : Except Err ℝ :=
  let num := quad (fun e => A.fl (A.fluxDensity σ e rhoA * A.absorbedShare σ e rhoS)) a b
  let den := quad (fun e => A.absorbedShare σ e rhoS) a b
  if den = 0 then .error .zeroDivision else .ok (A.fl (1 - A.fl (num / den)))

end Ries.RArith
