import Verif.Spec.Xrmac
import Verif.Spec.Rounded

/-! # Specification vocabulary for computed logarithms and powers -/

namespace Ries

/-- a computed decimal logarithm: monotone, with a relative error of at most `δ` -/
structure LogApprox (δ : ℝ) (lg : ℝ → ℝ) : Prop where
  mono : ∀ x y, 0 < x → x ≤ y → lg x ≤ lg y
  err : ∀ x, 0 < x → |lg x - Real.logb 10 x| ≤ δ * |Real.logb 10 x|

/-- a computed power of ten, with a relative error of at most `δ` -/
def PowApprox (δ : ℝ) (pw : ℝ → ℝ) : Prop := ∀ y, |pw y - (10 : ℝ) ^ y| ≤ δ * (10 : ℝ) ^ y

/-- `v` lies between `lo` and `hi` up to the relative error `(1 ± δ) * 10 ^ (± η)` -/
def Within (δ η lo hi v : ℝ) : Prop :=
  (1 - δ) * (10 : ℝ) ^ (-η) * lo ≤ v ∧ v ≤ (1 + δ) * (10 : ℝ) ^ η * hi

/-- different energies of the table differ by at least the factor `1 + ρ` -/
def Separated (ρ : ℝ) (t : Table) : Prop := ∀ r ∈ t, ∀ s ∈ t, r.1 < s.1 → r.1 * (1 + ρ) ≤ s.1

end Ries
