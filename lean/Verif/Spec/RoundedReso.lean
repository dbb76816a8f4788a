import Verif.Model.RoundedReso
import Verif.Spec.Rounded

namespace Ries

/-- Elementary operations and square roots have a relative error of at most `u`, powers and exponentials one of at most `4 u`
(no overflow, no underflow). -/
structure RArith.Accurate (u : ℝ) (A : RArith) : Prop where
  fl : Rounding u A.fl
  sq : ∀ x, |A.sq x - x ^ 2| ≤ 4 * u * |x ^ 2|
  exp : ∀ x, |A.exp x - Real.exp x| ≤ 4 * u * |Real.exp x|
  sqrt : ∀ x, 0 ≤ x → |A.sqrt x - Real.sqrt x| ≤ u * |Real.sqrt x|

/-- number of partial widths -/
def Level.channels (l : Level) : ℕ := (l.widths.getD []).length

/-- all partial widths have different names and are nonnegative -/
def Level.Physical (l : Level) : Prop := ∀ pw, l.widths = some pw → (pw.map Prod.fst).Nodup ∧ ∀ x ∈ pw, 0 ≤ x.2

end Ries
