import Verif.Model.Num
import Mathlib.Analysis.SpecialFunctions.Log.Base
import Mathlib.Analysis.SpecialFunctions.Pow.Real

/-!
# Model of `ries/nonresonant/xrmac.py`: interpolation of tabulated cross sections

A table is a list of rows `(E, y)` (columns 0 and 1 of the array; column 2 is stored but never
used by the code).  The energies of a table are positive reals; for rows with zero energy
see `Model/XrmacZero`, negative tabulated energies are not modelled.  Values may be zero:
`np.log10(0) = -inf`.  The energy at which a cross section is evaluated may be any real number: `np.log10(0) = -inf` is below every table,
`np.log10(E) = nan` for `E < 0`.
-/

namespace Ries

/-- `np.log10`: `-inf` at zero, nan for negative arguments. -/
noncomputable def flLog10 (x : ℝ) : Fl :=
  if 0 < x then .fin (Real.logb 10 x) else if x = 0 then .ninf else .nan

/-- `10 ** y` for a float `y` (`ries/nonresonant/xrmac.py:144`). -/
noncomputable def flPow10 : Fl → Fl
  | .fin y => .fin ((10 : ℝ) ^ y)
  | .ninf => .fin 0
  | .pinf => .pinf
  | .nan => .nan

/-- The value of `np.interp` strictly between two neighbouring nodes `x0 < x < x1`:
`slope * (x - x0) + y0`; when this is nan, `slope * (x - x1) + y1`; when this is nan too and
`y0 == y1`, then `y0`.  For nodes that are numbers or `-inf` this evaluates to the cases below
(one or two `-inf` give `-inf`). -/
noncomputable def lerp (x0 : ℝ) (y0 : Fl) (x1 : ℝ) (y1 : Fl) (x : ℝ) : Fl :=
  match y0, y1 with
  | .fin a, .fin b => .fin ((b - a) / (x1 - x0) * (x - x0) + a)
  | .fin _, .ninf => .ninf
  | .ninf, .fin _ => .ninf
  | .ninf, .ninf => .ninf
  | _, _ => .nan

/-- `np.interp(x, xp, fp)` for `xp` nondecreasing and `xp[0] <= x <= xp[-1]`: the nodes to the left
of the last one with `xp[j] <= x` are skipped; at a node (in particular at the last one) the value
of this node is returned. -/
noncomputable def npInterp : List (ℝ × Fl) → ℝ → Fl
  | [], _ => .nan
  | [(_, y0)], _ => y0
  | (x0, y0) :: (x1, y1) :: rest, x =>
      if x1 ≤ x then npInterp ((x1, y1) :: rest) x
      else if x = x0 then y0
      else lerp x0 y0 x1 y1 x

/-- The stable sort by abscissa that `scipy.interpolate.interp1d` performs
(`np.argsort(x, kind="mergesort")`). -/
noncomputable def sortNodes (t : List (ℝ × Fl)) : List (ℝ × Fl) :=
  t.mergeSort fun a b => decide (a.1 ≤ b.1)

/-- `scipy.interpolate.interp1d(x, y, bounds_error=False, fill_value=(below, above))(x)`:
sort the nodes, `np.interp` inside, the fill values below the first and above the last node. -/
noncomputable def interp1d (t : List (ℝ × Fl)) (below above : Fl) (x : ℝ) : Fl :=
  let s := sortNodes t
  match s.head?, s.getLast? with
  | some a, some b => if x < a.1 then below else if b.1 < x then above else npInterp s x
  | _, _ => .nan

/-- The same for a float argument: `-inf` is below and `inf` above all nodes (these are numbers);
nan is neither, and `np.interp` of nan is nan. -/
noncomputable def interp1dFl (t : List (ℝ × Fl)) (below above : Fl) : Fl → Fl
  | .fin x => interp1d t below above x
  | .ninf => below
  | .pinf => above
  | .nan => .nan

/-- A loaded table: rows `(E_i, y_i)`. -/
abbrev Table := List (ℝ × ℝ)

/-- `XRMAC.interpolate_log_log(data)`, `ries/nonresonant/xrmac.py:146-169`: nodes
`(log10 E_i, log10 y_i)`, fill values from the first and the last *row* of `data`.
An empty table raises `IndexError` (`data[:, 0]` of an empty array). -/
noncomputable def interpolateLogLog (data : Table) (x : Fl) : Except Err Fl :=
  match data.head?, data.getLast? with
  | some a, some b =>
      .ok (interp1dFl (data.map fun r => (Real.logb 10 r.1, flLog10 r.2)) (flLog10 a.2)
        (flLog10 b.2) x)
  | _, _ => .error .indexError

/-- `XRMAC.__call__(E)`, `ries/nonresonant/xrmac.py:131-144`. -/
noncomputable def xrmacCall (data : Table) (E : ℝ) : Except Err Fl :=
  (interpolateLogLog data (flLog10 E)).map flPow10

end Ries
