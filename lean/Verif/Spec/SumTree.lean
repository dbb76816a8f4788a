import Verif.Model.Darboux
import Verif.Spec.Rounded

/-! # Specification vocabulary for summation orders -/

namespace Ries

/-- the indices of the summands, from left to right -/
def SumTree.leaves : SumTree → List ℕ
  | .leaf i => [i]
  | .node l r => l.leaves ++ r.leaves

/-- the largest number of additions that a summand goes through -/
def SumTree.depth : SumTree → ℕ
  | .leaf _ => 0
  | .node l r => max l.depth r.depth + 1

/-- every summand below `n` is used exactly once, in any order -/
def SumTree.Covers (t : SumTree) (n : ℕ) : Prop := t.leaves.Perm (List.range n)

end Ries
