import Verif.Model.QuadPartition

/-! # Specification for property C201: quadratures that know the integrand at some points only -/

namespace Ries

/-- An integrator of functions of one variable that has no scale of its own: a shift and a stretching of the axis, and a factor in front of
the integrand, appear in the result and in the reported error in the obvious way. Every rule with fixed relative nodes has the property, as
has any scheme that bisects intervals until a relative tolerance is reached. -/
def Covariant (nquad : NQuad) : Prop :=
  ∀ (f g : List ℝ → ℝ) (l s m a b : ℝ), 0 < s → (∀ x, g [l + s * x] = m * f [x]) →
    nquad g [(l + s * a, l + s * b)] = (m * s * (nquad f [(a, b)]).1, |m| * s * (nquad f [(a, b)]).2)

/-- The first step of an integrator: nodes relative to the interval with their weights, and an estimate of the error from the values at the
nodes. -/
structure FirstRule where
  nodes : List (ℝ × ℝ)
  est : List ℝ → ℝ

namespace FirstRule

/-- the values at the nodes -/
def vals (ρ : FirstRule) (f : List ℝ → ℝ) (a b : ℝ) : List ℝ := ρ.nodes.map fun n => f [a + (b - a) * n.1]

/-- The rule, applied once to the interval. -/
def nquad (ρ : FirstRule) : NQuad := fun f ls =>
  match ls with
  | [(a, b)] => ((b - a) * (ρ.nodes.map fun n => n.2 * f [a + (b - a) * n.1]).sum, |b - a| * ρ.est (ρ.vals f a b))
  | _ => (0, 0)

open Classical in
/-- An adaptive integrator: the result of the rule is returned if the estimated error is within the tolerances; otherwise it continues in any
way. -/
noncomputable def adaptive (ρ : FirstRule) (epsabs epsrel : ℝ) (next : NQuad) : NQuad := fun f ls =>
  if (ρ.nquad f ls).2 ≤ max epsabs (epsrel * |(ρ.nquad f ls).1|) then ρ.nquad f ls else next f ls

/-- The estimated error is at most `K` times the largest value. -/
def Bounded (ρ : FirstRule) (K : ℝ) : Prop :=
  ∀ (vs : List ℝ) (η : ℝ), 0 ≤ η → (∀ v ∈ vs, |v| ≤ η) → |ρ.est vs| ≤ K * η

/-- The estimated error is proportional to the values. -/
def Homogeneous (ρ : FirstRule) : Prop := ∀ (vs : List ℝ) (m : ℝ), ρ.est (vs.map (m * ·)) = |m| * ρ.est vs

/-- sum of the absolute values of the weights -/
def weight (ρ : FirstRule) : ℝ := (ρ.nodes.map fun n => |n.2|).sum

end FirstRule

end Ries
