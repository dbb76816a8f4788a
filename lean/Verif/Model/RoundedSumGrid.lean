import Verif.Model.Rounded
import Verif.Model.Grid
import Verif.Model.RoundedGrid
import Verif.Model.RoundedIntegral

/-! # Grids of sums of cross sections and Darboux sums on them, with rounded arithmetic -/

namespace Ries

/-- A cross section (an instance of a subclass of `CrossSection`, `ries/cross_section.py:69-171`) with computed values and computed
grids for limits and at least two points. Values that are not finite, coverages and fewer points are not modelled (`runtimeError`). -/
noncomputable def Leaf.computed (eval : ℝ → Except Err Fl) (grid : ℝ → ℝ → ℕ → Except Err (Option (List Fl))) : Leaf where
  eval E := do
    match ← eval E with
    | .fin x => .ok x
    | _ => .error .runtimeError
  grid req n := match req with
    | .cov _ => .error .runtimeError
    | .lims a b => if n < 2 then .error .runtimeError else do
        match ← grid a b (n - 2).toNat with
        | some g => .ok g
        | none => .error .typeError

/-- `Nonresonant.equidistant_probability_grid((a, b), m + 2)`, `ries/nonresonant/nonresonant.py:26-35`, and
`ConstantCrossSection.equidistant_probability_grid((a, b), m + 2)`, `ries/cross_section.py:195-200`, rounded -/
noncomputable def constGridR (fl : ℝ → ℝ) (a b : ℝ) (m : ℕ) : Except Err (Option (List Fl)) := .ok (some ((linspaceR fl a b m).map .fin))

namespace Obj

mutual
/-- `obj.equidistant_probability_grid((a, b), m + 2)` for leaf / constant / weighted sum, `ries/cross_section.py:195-200, 342-363`;
only the grids of the constituents involve arithmetic. Numbers have no such attribute. -/
noncomputable def probGridR (fl : ℝ → ℝ) : Obj → ℝ → ℝ → ℕ → Except Err (List Fl)
  | num _, _, _, _ => .error .attributeError
  | leaf l, a, b, m => l.grid (.lims a b) (m + 2)
  | const _, a, b, m => .ok ((linspaceR fl a b m).map .fin)
  | wsum rs _, a, b, m => do
      let gs ← probGridsR fl rs a b m
      .ok (npUnique gs)
/-- the loop l.355-362 with `chain(*grid)` -/
noncomputable def probGridsR (fl : ℝ → ℝ) : List Obj → ℝ → ℝ → ℕ → Except Err (List Fl)
  | [], _, _, _ => .ok []
  | o :: os, a, b, m => do
      let g ← probGridR fl o a b m
      let gs ← probGridsR fl os a b m
      .ok (g ++ gs)
end

/-- `darboux(obj, obj.equidistant_probability_grid((a, b), m + 2))`, `ries/integration/darboux.py:69-82`; the object is evaluated
entry by entry. -/
noncomputable def gridIntegralR (fl : ℝ → ℝ) (order : ℕ → SumTree) (o : Obj) (a b : ℝ) (m : ℕ) : Except Err (ℝ × ℝ) := do
  let g ← o.probGridR fl a b m
  darbouxCallR fl order (fun E => (valueR fl o E).map .fin) g

end Obj
end Ries
