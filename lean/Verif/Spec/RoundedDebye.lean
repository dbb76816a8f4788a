import Verif.Model.RoundedDebye
import Verif.Spec.RoundedReso

/-! # Accuracy of the operations and of the quadrature -/

open MeasureTheory

namespace Ries

/-- Accurate arithmetic: as for resonances, and cubes like squares. -/
structure DArith.Accurate (u : ℝ) (A : DArith) : Prop where
  base : A.toRArith.Accurate u
  cube : ∀ x, |A.cube x - x ^ 3| ≤ 4 * u * |x ^ 3|

/-- A list of nodes and weights of a quadrature on the interval from 0 to `b`: nonnegative weights that add up to `b` at most, nodes between
`t₀` and `b`, and a relative error of at most `ε` for the exact integrand. The 21-point rule of `quad` is such a list with `t₀ = 0.002 b`,
and so is a rule on a subdivided interval. -/
structure IsDebyeRule (rule : List (ℝ × ℝ)) (b t₀ ε : ℝ) : Prop where
  nodes : ∀ p ∈ rule, t₀ ≤ p.1 ∧ p.1 ≤ b ∧ 0 ≤ p.2
  total : (rule.map Prod.snd).sum ≤ b
  exact : |(rule.map fun p => p.2 * debyeIntegrand p.1).sum - ∫ t in (0 : ℝ)..b, debyeIntegrand t| ≤ ε * ∫ t in (0 : ℝ)..b, debyeIntegrand t

/-- The routine `quad` integrates the function `g` from 0 to `b` by such a list, with a relative error of at most `ε` in the evaluation of the sum
(for `g ≥ 0`). -/
def QuadUses (quad : (ℝ → ℝ) → ℝ → ℝ → ℝ) (g : ℝ → ℝ) (b t₀ ε : ℝ) : Prop :=
  ∃ rule, IsDebyeRule rule b t₀ ε ∧
    |quad g 0 b - (rule.map fun p => p.2 * g p.1).sum| ≤ ε * |(rule.map fun p => p.2 * g p.1).sum|

end Ries
