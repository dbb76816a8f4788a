import Verif.Model.DarbouxShapes

/-!
# `darboux` on arrays with any number of axes

`Model/DarbouxShapes` is about vectors and matrices.  Here the values and the partition have any shape.
-/

namespace Ries

/-- a numpy array: lengths of the axes (first axis first) and all entries, the last axis running fastest.  No axes: a number. -/
structure ArrN where
  shape : List ℕ
  entries : List ℝ

namespace ArrN

/-- as many entries as the shape says -/
def WF (a : ArrN) : Prop := a.entries.length = a.shape.prod

/-- a numpy function that works entry by entry -/
def map (f : ℝ → ℝ) (a : ArrN) : ArrN := ⟨a.shape, a.entries.map f⟩

/-- `(x - np.roll(x, 1))[1:]`, `ries/integration/darboux.py:69`: `np.roll` shifts the flattened array, and `[1:]` drops the first element
along the first axis, which is a whole subarray.  A number cannot be sliced (`IndexError`).  Result: entries, and the length of the last axis
if there is more than one. -/
def steps (a : ArrN) : Except Err (List ℝ × Option ℕ) :=
  match a.shape with
  | [] => .error .indexError
  | [_] => .ok (diffs a.entries, none)
  | _ :: d :: ds => .ok ((List.zipWith (· - ·) a.entries (roll1 a.entries)).drop (d :: ds).prod, some ((d :: ds).getLast (by simp)))

/-- The two rows of `lower_upper`, l.74-76.  A number has no `len` (`TypeError`), and `np.zeros((2, -1))` is a `ValueError`.  `fx[:-1]` has the
shape `(n - 1, …)`, and is assigned to a row with `n - 1` entries: with more than one axis this is possible only if all axes but the last can
be dropped because they have the length 1, and the last has as many entries as the row, which means `n = 2` and length 1 on all other axes. -/
def neighbours (a : ArrN) : Except Err (List ℝ × List ℝ) :=
  match a.shape with
  | [] => .error .typeError
  | 0 :: _ => .error .valueError
  | [_] => .ok (a.entries.dropLast, a.entries.drop 1)
  | 2 :: ds => if ∀ d ∈ ds, d = 1 then .ok (a.entries.dropLast, a.entries.drop 1) else .error .valueError
  | _ :: _ => .error .valueError

end ArrN

/-- first argument of `darboux`: a function that works entry by entry, or an array of values -/
inductive FArgN
  | fn (f : ℝ → ℝ)
  | vals (v : ArrN)

/-- `darboux(f_or_fx, x)`, `ries/integration/darboux.py:55-82`, on arrays with any number of axes -/
def darbouxAny (f : FArgN) (x : ArrN) : Except Err (ℝ × ℝ) := do
  let dx ← x.steps
  let fx := match f with
    | .fn f => x.map f
    | .vals v => v
  let (a, b) ← fx.neighbours
  let lower ← Arr2.sumProduct (List.zipWith min a b) dx
  let upper ← Arr2.sumProduct (List.zipWith max a b) dx
  .ok (lower, |upper - lower|)

end Ries
