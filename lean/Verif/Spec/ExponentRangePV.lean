import Verif.Spec.ExponentRange
import Verif.Spec.RoundedPV

/-! # Arithmetic with a limited range of exponents, with powers -/

namespace Ries

/-- As `PArith.Accurate`, but nothing is known of an operation whose exact result overflows or underflows. Results have 53 significant
binary digits: the result of an operation with an exact result of at least `2 ^ e` is a multiple of `2 ^ (e - 52)`. -/
structure PArith.AccurateInRange (u : ℝ) (A : PArith) : Prop extends RArith.AccurateInRange u A.toRArith where
  ln2 : |A.ln2 - Real.log 2| ≤ u * Real.log 2
  pow : ∀ x y, 0 < x → Normal (x ^ y) → |A.pow x y - x ^ y| ≤ 4 * u * x ^ y
  grid : ∀ x, Normal x → ∀ e : ℤ, (2 : ℝ) ^ e ≤ |x| → ∃ n : ℤ, A.fl x = n * 2 ^ (e - 52)

end Ries
