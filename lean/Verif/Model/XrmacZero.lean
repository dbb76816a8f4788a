import Verif.Model.Xrmac

/-!
# Tables of `ries/nonresonant/xrmac.py` with zero energies

`np.log10(0) = -inf`, so that the nodes of the interpolation are floats that may be `-inf`.  The formulas of `np.interp` are written
out in IEEE arithmetic (exact reals, infinities, nan; the sign of zero is not modelled, no division by zero occurs).
Negative tabulated energies (nodes that are nan) are not modelled.
-/

namespace Ries

namespace Fl

/-- `-x` -/
def neg : Fl → Fl
  | fin x => fin (-x)
  | ninf => pinf
  | pinf => ninf
  | nan => nan

/-- `x - y` -/
def sub (a b : Fl) : Fl := a.add b.neg

/-- `x * y` -/
noncomputable def mul : Fl → Fl → Fl
  | fin x, b => b.smul x
  | a, fin y => a.smul y
  | nan, _ => nan
  | _, nan => nan
  | pinf, pinf => pinf
  | ninf, ninf => pinf
  | pinf, ninf => ninf
  | ninf, pinf => ninf

/-- `x / y` for `y` other than zero -/
noncomputable def div : Fl → Fl → Fl
  | fin x, fin y => fin (x / y)
  | fin _, pinf => fin 0
  | fin _, ninf => fin 0
  | nan, _ => nan
  | _, nan => nan
  | a, fin y => a.smul y⁻¹
  | _, _ => nan

/-- the comparison `x == y`, false for nan -/
def same (a b : Fl) : Prop := a ≠ nan ∧ a = b

end Fl

open Classical in
/-- `np.interp` strictly between two neighbouring nodes: `slope * (x - x0) + y0`; when this is nan, `slope * (x - x1) + y1`; when this
is nan too and `y0 == y1`, then `y0`. -/
noncomputable def lerpFl (x0 y0 x1 y1 x : Fl) : Fl :=
  let slope := (y1.sub y0).div (x1.sub x0)
  let d := (slope.mul (x.sub x0)).add y0
  if d = .nan then
    let d' := (slope.mul (x.sub x1)).add y1
    if d' = .nan then (if y0.same y1 then y0 else .nan) else d'
  else d

/-- `np.interp(x, xp, fp)` as `npInterp`, for nodes that are numbers or `-inf` -/
noncomputable def npInterpFl : List (Fl × Fl) → Fl → Fl
  | [], _ => .nan
  | [(_, y0)], _ => y0
  | (x0, y0) :: (x1, y1) :: rest, x =>
      if x1 ≤ x then npInterpFl ((x1, y1) :: rest) x
      else if x = x0 then y0
      else lerpFl x0 y0 x1 y1 x

/-- the stable sort by abscissa in `scipy.interpolate.interp1d` -/
noncomputable def sortNodesFl (t : List (Fl × Fl)) : List (Fl × Fl) :=
  t.mergeSort fun a b => decide (a.1 ≤ b.1)

/-- `scipy.interpolate.interp1d(x, y, bounds_error=False, fill_value=(below, above))(x)`; comparisons with nan are false -/
noncomputable def interp1dZ (t : List (Fl × Fl)) (below above : Fl) (x : Fl) : Fl :=
  let s := sortNodesFl t
  match s.head?, s.getLast? with
  | some a, some b =>
      if x = .nan then .nan else if x < a.1 then below else if b.1 < x then above else npInterpFl s x
  | _, _ => .nan

/-- `XRMAC.interpolate_log_log(data)`, `ries/nonresonant/xrmac.py:146-169`, for nonnegative tabulated energies -/
noncomputable def interpolateLogLogZ (data : Table) (x : Fl) : Except Err Fl :=
  match data.head?, data.getLast? with
  | some a, some b =>
      .ok (interp1dZ (data.map fun r => (flLog10 r.1, flLog10 r.2)) (flLog10 a.2) (flLog10 b.2) x)
  | _, _ => .error .indexError

/-- `XRMAC.__call__(E)`, `ries/nonresonant/xrmac.py:131-144`, for nonnegative tabulated energies -/
noncomputable def xrmacCallZ (data : Table) (E : ℝ) : Except Err Fl :=
  (interpolateLogLogZ data (flLog10 E)).map flPow10

end Ries
