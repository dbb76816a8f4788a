import Verif.Model.RoundedKN
import Verif.Spec.Rounded
import Mathlib.Data.Int.Log
import Mathlib.Algebra.Order.Round

/-!
# Requirements on the arithmetic, and rounding to nearest
-/

namespace Ries.KN

/-- Every operation has a relative error of at most `u`, logarithm and power one of at most `4 u`. -/
structure Arith.Accurate (u : ℝ) (a : Arith) : Prop where
  fl : Rounding u a.fl
  lg : ∀ x, 0 < x → |a.lg x - Real.log x| ≤ 4 * u * |Real.log x|
  cb : ∀ x, 0 < x → |a.cb x - x ^ (-3 : ℤ)| ≤ 4 * u * |x ^ (-3 : ℤ)|

/-- Double precision: in addition, a result between 1 and 2 is rounded to a nearest multiple of `2⁻⁵²`. -/
structure Arith.Double (a : Arith) : Prop extends a.Accurate (1 / 2 ^ 53) where
  near : ∀ x, 1 ≤ x → x ≤ 2 → ∃ n : ℤ, a.fl x = n / 2 ^ 52 ∧ |a.fl x - x| ≤ 1 / 2 ^ 53

/-- Rounding to nearest with 53 significant binary digits (ties upwards), any exponent. -/
noncomputable def rn (x : ℝ) : ℝ :=
  round (x * 2 ^ (52 - Int.log 2 |x|)) / 2 ^ (52 - Int.log 2 |x|)

/-- Arithmetic with rounding to nearest. -/
noncomputable def rnArith : Arith := ⟨rn, fun x => rn (Real.log x), fun x => rn (x ^ (-3 : ℤ))⟩

end Ries.KN
