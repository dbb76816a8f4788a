import Verif.Spec.RoundedReso
import Verif.Model.RoundedComptonAngles

/-! # Specification for property C198 -/

namespace Ries

/-- As `RArith.Accurate`; the trigonometric functions have a relative error of at most `4 u`. -/
structure TArith.Accurate (u : ℝ) (T : TArith) : Prop extends RArith.Accurate u T.toRArith where
  sin : ∀ x, |T.sin x - Real.sin x| ≤ 4 * u * |Real.sin x|
  cos : ∀ x, |T.cos x - Real.cos x| ≤ 4 * u * |Real.cos x|
  arccos : ∀ x, |x| ≤ 1 → |T.arccos x - Real.arccos x| ≤ 4 * u * |Real.arccos x|

end Ries
