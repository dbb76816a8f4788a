import Verif.Model.KleinNishina
import Verif.Model.Grid

/-! # Compton scattering as a constituent of a sum -/

namespace Ries.KN

/-- A `KleinNishina` object as a constituent of a weighted sum: `__call__`, `klein_nishina.py:121-134`, and the grid method of
`nonresonant.py:23-37`.  A value that is not a number is outside the real-valued model of sums (reported as `runtimeError`). -/
noncomputable def toLeaf (k : PhysConst) (s : KN) : Leaf where
  eval E := do
    match ← s.totalFl k E with
    | .fin x => .ok x
    | _ => .error .runtimeError
  grid := constGrid

end Ries.KN
