import Verif.Model.RoundedSumGrid
import Mathlib.MeasureTheory.Integral.IntervalIntegral.Basic

/-! # Specification: cross sections that can be integrated numerically on any refinement of their grid -/

open Set

namespace Ries

/-- Every sum of values at one end of each interval, on every partition `x 0 ≤ … ≤ x n` from `a` to `b` that contains the points `g`,
is within `B` of the integral of `f`. -/
def RefinedWithin (a b : ℝ) (g : List ℝ) (f : ℝ → ℝ) (B : ℝ) : Prop :=
  ∀ (x : ℕ → ℝ) (n : ℕ), Monotone x → x 0 = a → x n = b → (∀ y ∈ g, ∃ i ≤ n, x i = y) → ∀ c : ℕ → Prop, [DecidablePred c] →
    |∑ i ∈ Finset.range n, f (if c i then x i else x (i + 1)) * (x (i + 1) - x i) - ∫ E in a..b, f E| ≤ B

/-- The object `o` stands for the exact cross section `f`: between the limits its computed values are off by at most the relative error
`ε`, and its computed grid of `m + 2` points contains the limits, no points outside, and resolves `f` up to `B`. -/
structure Resolves (fl : ℝ → ℝ) (a b : ℝ) (m : ℕ) (ε B : ℝ) (f : ℝ → ℝ) (o : Obj) : Prop where
  value : ∀ E ∈ Icc a b, ∃ y, o.callR fl E = .ok (.num y) ∧ |y - f E| ≤ ε * f E
  nonneg : ∀ E ∈ Icc a b, 0 ≤ f E
  cont : ContinuousOn f (Icc a b)
  grid : ∃ g : List ℝ, o.probGridR fl a b m = .ok (g.map .fin) ∧ a ∈ g ∧ b ∈ g ∧ (∀ x ∈ g, a ≤ x ∧ x ≤ b) ∧ RefinedWithin a b g f B

end Ries
