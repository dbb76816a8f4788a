import Verif.Model.RoundedPV
import Verif.Spec.RoundedReso

namespace Ries

/-- As `RArith.Accurate`; the logarithm of 2 has a relative error of at most `u`, powers of positive numbers one of at most `4 u`. -/
structure PArith.Accurate (u : ℝ) (A : PArith) : Prop extends RArith.Accurate u A.toRArith where
  ln2 : |A.ln2 - Real.log 2| ≤ u * Real.log 2
  pow : ∀ x y, 0 < x → |A.pow x y - x ^ y| ≤ 4 * u * x ^ y

end Ries
