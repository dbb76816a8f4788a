import Mathlib.Algebra.Order.BigOperators.Group.Finset
import Mathlib.Data.Real.Basic

/-! # Specification for property C200: quadratures -/

namespace Ries

/-- A quadrature with nonnegative weights, for example the ones of Gauss and Kronrod on a partition of the interval. -/
structure PosRule where
  n : ℕ
  w : Fin n → ℝ
  node : Fin n → ℝ
  nonneg : ∀ i, 0 ≤ w i

namespace PosRule

variable (R : PosRule)

/-- the weighted sum of the given values -/
def sum (f : Fin R.n → ℝ) : ℝ := ∑ i, R.w i * f i

/-- The quadrature of `f` has a relative error of at most `ε`. -/
def Integrates (ε : ℝ) (f : ℝ → ℝ) (I : ℝ) : Prop := |R.sum (fun i => f (R.node i)) - I| ≤ ε * |I|

/-- `q` is the sum of the given values computed with rounding errors. -/
def Evaluates (δ : ℝ) (f : Fin R.n → ℝ) (q : ℝ) : Prop := |q - R.sum f| ≤ δ * R.sum (fun i => |f i|)

end PosRule

end Ries
