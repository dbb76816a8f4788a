import Verif.Model.CrossSection
import Verif.Spec.CrossSection

/-!
# `ries/cross_section.py` with rounded arithmetic

The operators and the evaluation of `Model/CrossSection`, with a rounding `fl` after every addition and
every multiplication of two numbers.  With `fl = id` these are the exact functions
(`Lemmas/Rounded.lean`: `addR_id`, `mulR_id`, `callR_id`, `runR_id`).
-/

namespace Ries.Obj

variable (fl : ℝ → ℝ)

/-- Python's `a + b` with rounding, `ries/cross_section.py:79-93, 228-274`: only the sum of two numbers is
arithmetic, all other cases build lists. -/
def addR : Obj → Obj → Except Err Obj
  | num x, num y => .ok (num (fl (x + y)))
  | num x, wsum rs ss => wsumAdd rs ss (num x)
  | num x, b => .ok (csAdd b (num x))
  | wsum rs ss, b => wsumAdd rs ss b
  | a, b => .ok (csAdd a b)

mutual
/-- Python's `a * b` with rounding, `ries/cross_section.py:95-109, 276-302`. -/
def mulR : Obj → Obj → Except Err Obj
  | num x, num y => .ok (num (fl (x * y)))
  | num x, wsum rs ss => (mulLoopR (num x) rs ss).map (wsum rs)
  | num x, leaf l => .ok (wsum [leaf l] [num x])
  | num x, const c => .ok (wsum [const c] [num x])
  | wsum rs ss, b => (mulLoopR b rs ss).map (wsum rs)
  | leaf l, b => .ok (wsum [leaf l] [b])
  | const c, b => .ok (wsum [const c] [b])
termination_by a b => (sizeOf a + sizeOf b, 0)

/-- The loop of `CrossSectionWeightedSum.__mul__`, `ries/cross_section.py:290-295`. -/
def mulLoopR (other : Obj) : List Obj → List Obj → Except Err (List Obj)
  | [], _ => .ok []
  | _ :: _, [] => .error .indexError
  | _ :: rs, s :: ss => do
      let p ← mulR other s
      let ps ← mulLoopR other rs ss
      .ok (p :: ps)
termination_by rs ss => (sizeOf other + sizeOf ss, 1 + rs.length)
end

mutual
/-- `obj(E)` with rounding, `ries/cross_section.py:72-77, 188-193, 304-323`. The values of the leaves are
taken as they are computed. -/
def callR : Obj → ℝ → Except Err Obj
  | num _, _ => .error .typeError
  | leaf l, E => (l.eval E).map num
  | const c, _ => .ok (num c)
  | wsum rs ss, E => callLoopR rs ss (num 0) E

/-- The accumulation loop of `CrossSectionWeightedSum.__call__`, l.318-323. -/
def callLoopR : List Obj → List Obj → Obj → ℝ → Except Err Obj
  | [], _, acc, _ => .ok acc
  | _ :: _, [], _, _ => .error .indexError
  | r :: rs, s :: ss, acc, E => do
      let v ← callR r E
      let p ← mulR fl s v
      let acc' ← addR fl acc p
      callLoopR rs ss acc' E
end

/-- built-in `sum` with rounding -/
def pySumR (xs : List Obj) : Except Err Obj :=
  xs.foldlM (addR fl) (num 0)

end Ries.Obj

namespace Ries

mutual
/-- What Python computes for an expression, with rounding. -/
def Expr.runR (fl : ℝ → ℝ) : Expr → Except Err Obj
  | .num c => .ok (.num c)
  | .atom l => .ok (.leaf l)
  | .const c => .ok (.const c)
  | .add a b => do
      let x ← a.runR fl
      let y ← b.runR fl
      Obj.addR fl x y
  | .mul a b => do
      let x ← a.runR fl
      let y ← b.runR fl
      Obj.mulR fl x y
  | .sum xs => do
      let os ← Expr.runsR fl xs
      Obj.pySumR fl os
/-- evaluate the elements of a list display -/
def Expr.runsR (fl : ℝ → ℝ) : List Expr → Except Err (List Obj)
  | [] => .ok []
  | x :: xs => do
      let o ← x.runR fl
      let os ← Expr.runsR fl xs
      .ok (o :: os)
end

/-- The value a user sees, with rounding; see `value`. -/
def valueR (fl : ℝ → ℝ) (o : Obj) (E : ℝ) : Except Err ℝ :=
  match o with
  | .num c => .ok c
  | o => match o.callR fl E with
    | .ok (.num x) => .ok x
    | .ok _ => .error .typeError
    | .error e => .error e

end Ries
