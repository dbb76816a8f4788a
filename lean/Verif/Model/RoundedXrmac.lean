import Verif.Model.Xrmac
import Verif.Spec.XrmacFormat

/-!
# `XRMAC.__call__` with rounded arithmetic

`fl` rounds the result of an arithmetic operation, `lg` and `pw` are the computed functions `np.log10(x)` and `10 ** x`.
Tables with positive energies and values, and positive energies, only: no logarithm is infinite.  Overflow and underflow
are not modelled.
-/

namespace Ries

/-- `slope * (x - x0) + y0` of `np.interp` between two neighbouring nodes, with `slope = (y1 - y0) / (x1 - x0)`, operation by
operation (`lerp` with rounding) -/
noncomputable def lerpR (fl : ℝ → ℝ) (x0 : ℝ) (y0 : Fl) (x1 : ℝ) (y1 : Fl) (x : ℝ) : Fl :=
  match y0, y1 with
  | .fin a, .fin b => .fin (fl (fl (fl (fl (b - a) / fl (x1 - x0)) * fl (x - x0)) + a))
  | _, _ => .nan

/-- `np.interp(x, xp, fp)`, as `npInterp`; comparisons are exact -/
noncomputable def npInterpR (fl : ℝ → ℝ) : List (ℝ × Fl) → ℝ → Fl
  | [], _ => .nan
  | [(_, y0)], _ => y0
  | (x0, y0) :: (x1, y1) :: rest, x =>
      if x1 ≤ x then npInterpR fl ((x1, y1) :: rest) x
      else if x = x0 then y0
      else lerpR fl x0 y0 x1 y1 x

/-- `scipy.interpolate.interp1d` with fill values, as `interp1d` -/
noncomputable def interp1dR (fl : ℝ → ℝ) (t : List (ℝ × Fl)) (below above : Fl) (x : ℝ) : Fl :=
  let s := sortNodes t
  match s.head?, s.getLast? with
  | some a, some b => if x < a.1 then below else if b.1 < x then above else npInterpR fl s x
  | _, _ => .nan

/-- `10 ** y` for a float `y`, with the computed power `pw` -/
def powR (pw : ℝ → ℝ) : Fl → Fl
  | .fin y => .fin (pw y)
  | .ninf => .fin 0
  | .pinf => .pinf
  | .nan => .nan

/-- `XRMAC.__call__(E)`, `ries/nonresonant/xrmac.py:131-169`, for a table of positive numbers and a positive energy -/
noncomputable def xrmacCallR (fl lg pw : ℝ → ℝ) (data : Table) (E : ℝ) : Except Err Fl :=
  match data.head?, data.getLast? with
  | some a, some b =>
      .ok (powR pw (interp1dR fl (data.map fun r => (lg r.1, .fin (lg r.2))) (.fin (lg a.2)) (.fin (lg b.2)) (lg E)))
  | _, _ => .error .indexError

/-- the rows that `read_nist_xrmac` (`ries/nonresonant/xrmac.py:171-225`) makes of the lines of a file, without conversion of units: the
numbers in the file, rounded (the exact version is `Line.row`) -/
noncomputable def storedRows (fl : ℝ → ℝ) (ls : List Line) : Table :=
  ls.map fun l => (fl (l.energy.value : ℝ), fl (l.mu.value : ℝ))

end Ries
