import Verif.Model.Darboux

/-!
# `darboux` on arrays with one or two axes

`Model/Darboux` is about one-dimensional arrays.  Here the values and the partition may be two-dimensional.
-/

namespace Ries

/-- a numpy array: a vector, or a matrix given by its rows and the number of columns -/
inductive Arr2
  | vec (v : List ℝ)
  | mat (rows : List (List ℝ)) (cols : ℕ)

namespace Arr2

/-- every row of a matrix has the given number of columns -/
def WF : Arr2 → Prop
  | vec _ => True
  | mat rows cols => ∀ r ∈ rows, r.length = cols

/-- a numpy function that works entry by entry -/
def map (f : ℝ → ℝ) : Arr2 → Arr2
  | vec v => vec (v.map f)
  | mat rows cols => mat (rows.map fun r => r.map f) cols

/-- `(x - np.roll(x, 1))[1:]`, `ries/integration/darboux.py:69`: without an axis, `np.roll` shifts the flattened array, and `[1:]` drops the
first row of a matrix.  Result: entries row by row, and the number of columns of a matrix. -/
def steps : Arr2 → List ℝ × Option ℕ
  | vec v => (diffs v, none)
  | mat rows cols => ((List.zipWith (· - ·) rows.flatten (roll1 rows.flatten)).drop cols, some cols)

/-- The two rows of `lower_upper`, l.74-76.  `np.zeros((2, -1))` is a `ValueError`; the assignment of a matrix `fx[:-1]` to a row is one too,
unless the matrix has a single row and a single column. -/
def neighbours : Arr2 → Except Err (List ℝ × List ℝ)
  | vec [] => .error .valueError
  | vec (y :: ys) => .ok ((y :: ys).dropLast, (y :: ys).drop 1)
  | mat [r, s] 1 => .ok (r, s)
  | mat _ _ => .error .valueError

/-- `np.sum(m * dx)`, l.77-78, for a vector `m`: the last axes have to fit, otherwise `ValueError` -/
def sumProduct (m : List ℝ) : List ℝ × Option ℕ → Except Err ℝ
  | (dx, none) => (bmul m dx).map List.sum
  | (dx, some cols) =>
      if m.length = cols then .ok (dx.mapIdx fun t d => m.getD (t % cols) 0 * d).sum
      else if m.length = 1 then .ok (dx.map (m.headD 0 * ·)).sum
      else if cols = 1 then .ok (dx.flatMap fun d => m.map (· * d)).sum
      else .error .valueError

end Arr2

/-- first argument of `darboux`: a function that works entry by entry, or an array of values -/
inductive FArg2
  | fn (f : ℝ → ℝ)
  | vals (v : Arr2)

/-- `darboux(f_or_fx, x)`, `ries/integration/darboux.py:55-82`, on arrays with one or two axes -/
def darbouxNd (f : FArg2) (x : Arr2) : Except Err (ℝ × ℝ) := do
  let fx := match f with
    | .fn f => x.map f
    | .vals v => v
  let (a, b) ← fx.neighbours
  let lower ← Arr2.sumProduct (List.zipWith min a b) x.steps
  let upper ← Arr2.sumProduct (List.zipWith max a b) x.steps
  .ok (lower, |upper - lower|)

end Ries
