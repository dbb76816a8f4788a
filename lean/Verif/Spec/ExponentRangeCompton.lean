import Verif.Spec.ExponentRange
import Verif.Spec.RoundedComptonAngles

/-! # Specification for C155 and C198: trigonometric functions in an arithmetic with a limited range of exponents -/

namespace Ries

/-- As `TArith.Accurate`, but nothing is known of an operation whose exact result overflows or underflows. Results have 53 significant
binary digits, as in `KN.Arith.AccurateInRange`; a computed cosine is at most one. -/
structure TArith.AccurateInRange (u : ℝ) (T : TArith) : Prop extends RArith.AccurateInRange u T.toRArith where
  sin : ∀ x, Normal (Real.sin x) → |T.sin x - Real.sin x| ≤ 4 * u * |Real.sin x|
  cos : ∀ x, Normal (Real.cos x) → |T.cos x - Real.cos x| ≤ 4 * u * |Real.cos x|
  cosOne : ∀ x, |T.cos x| ≤ 1
  cosGrid : ∀ x, 1 / 2 ≤ T.cos x → ∃ n : ℤ, T.cos x = n / 2 ^ 53
  grid : ∀ x, Normal x → ∀ e : ℤ, (2 : ℝ) ^ e ≤ |x| → ∃ n : ℤ, T.fl x = n * 2 ^ (e - 52)
  arccos : ∀ x, |x| ≤ 1 → Normal (Real.arccos x) → |T.arccos x - Real.arccos x| ≤ 4 * u * |Real.arccos x|

/-- No computed angle is very close to a zero of the sine or the cosine, unless it is zero. In double precision, the numbers next to
`π` and `π / 2` differ from them by at least `2⁻⁵⁴`. -/
def TArith.AnglesInRange (T : TArith) : Prop :=
  ∀ x, |x| ≤ 1 → Mag (-53) 1 (1 - x) → Mag (-100) 0 (Real.cos (T.arccos x)) ∧ Mag (-100) 0 (Real.sin (T.arccos x))

end Ries
