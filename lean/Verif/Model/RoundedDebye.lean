import Verif.Model.RoundedReso
import Verif.Model.Debye

/-! # Effective temperature of the Debye model with rounded arithmetic -/

namespace Ries

/-- The operations of `RArith`, and `cube x` for `x ** 3`. -/
structure DArith extends RArith where
  cube : ℝ → ℝ

namespace DArith

variable (A : DArith)

/-- the integrand `t ** 3 * (1.0 / (np.exp(t) - 1.0) + 0.5)`, `ries/resonance/debye_model.py:85`. Where the computed exponential is 1,
numpy gives infinity; the theorems exclude such small `t`. -/
noncomputable def debyeIntegrand (t : ℝ) : ℝ := A.fl (A.cube t * A.fl (A.fl (1 / A.fl (A.exp t - 1)) + 0.5))

/-- `effective_temperature_debye_approximation`, `ries/resonance/debye_model.py:62-87`, for one pair of temperatures. The argument `quad` is
`scipy.integrate.quad(...)[0]`, which is called with the computed integrand and the limits 0 and `T_D / T`. -/
noncomputable def debyeTemperature (quad : (ℝ → ℝ) → ℝ → ℝ → ℝ) (T TD : ℝ) : Except Err ℝ := do
  let x ← A.div T TD
  let b ← A.div TD T
  .ok (A.fl (A.fl (A.fl (3 * A.cube x) * T) * quad A.debyeIntegrand 0 b))

end DArith
end Ries
