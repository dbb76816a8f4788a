import Verif.Model.RoundedReso
import Mathlib.MeasureTheory.Integral.IntervalIntegral.Basic

/-! # Specification vocabulary for numerical quadrature -/

namespace Ries

open MeasureTheory

/-- What `scipy.integrate.quad` promises: for a continuous integrand `f` that is evaluated with errors of at most `η`, the result is the integral
up to the requested absolute or relative tolerance, whichever is larger, and the errors of the evaluations. -/
def Integrates (epsabs epsrel : ℝ) (quad : (ℝ → ℝ) → ℝ → ℝ → ℝ) : Prop :=
  ∀ (a b η : ℝ) (f f' : ℝ → ℝ), a ≤ b → 0 ≤ η → ContinuousOn f (Set.Icc a b) → (∀ x ∈ Set.Icc a b, |f' x - f x| ≤ η) →
    |quad f' a b - ∫ x in a..b, f x| ≤ max epsabs (epsrel * |∫ x in a..b, f x|) + η * (b - a)

/-- arithmetic without rounding -/
noncomputable def RArith.exact : RArith := ⟨id, fun x => x ^ 2, Real.exp, Real.sqrt⟩

end Ries
