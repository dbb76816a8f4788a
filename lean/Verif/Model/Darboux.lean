import Verif.Model.CrossSection

/-! # Model of `ries/integration/darboux.py` -/

namespace Ries

/-- First argument of `darboux`: a callable (a vectorised function of the grid, returning an array
or a scalar) or the values themselves. `ries/integration/darboux.py:68-72`. -/
inductive FArg
  | callable (f : List ℝ → Val)
  | vals (v : Val)

/-- The vectorised version of a function on numbers. -/
def vectorised (f : ℝ → ℝ) : FArg := .callable (fun xs => .arr (xs.map f))

/-- `np.roll(x, 1)` on a one-dimensional array (numpy: last element moved to the front). -/
def roll1 (xs : List ℝ) : List ℝ :=
  match xs.getLast? with
  | none => []
  | some l => l :: xs.dropLast

/-- `dx = (x - np.roll(x, 1))[1:]`, `ries/integration/darboux.py:69`. -/
def diffs (xs : List ℝ) : List ℝ := (List.zipWith (· - ·) xs (roll1 xs)).drop 1

/-- numpy product of two one-dimensional arrays with broadcasting: equal lengths, or one of them has
length 1 and is stretched; otherwise `ValueError`. -/
def bmul (a b : List ℝ) : Except Err (List ℝ) :=
  if a.length = b.length then .ok (List.zipWith (· * ·) a b)
  else match a, b with
    | [x], b => .ok (b.map (x * ·))
    | a, [y] => .ok (a.map (· * y))
    | _, _ => .error .valueError

/-- `darboux(f_or_fx, x)`, `ries/integration/darboux.py:55-82`. `len` of a scalar is a `TypeError`;
`np.zeros((2, -1))` is a `ValueError`. Returns (lower sum, gap). -/
def darboux (f : FArg) (x : List ℝ) : Except Err (ℝ × ℝ) :=
  let dx := diffs x
  let fx := match f with
    | .callable f => f x
    | .vals v => v
  match fx with
  | .sc _ => .error .typeError
  | .arr [] => .error .valueError
  | .arr (y :: ys) => do
      let row0 := (y :: ys).dropLast
      let row1 := (y :: ys).drop 1
      let lower ← bmul (List.zipWith min row0 row1) dx
      let upper ← bmul (List.zipWith max row0 row1) dx
      let lowerSum := lower.sum
      let upperSum := upper.sum
      .ok (lowerSum, |upperSum - lowerSum|)

/-- `darboux(cs, x)` for a cross section, which is callable: `fx = f_or_fx(x)`, `ries/integration/darboux.py:68-82`; an error of the call
is passed on. -/
def darbouxOf (o : Obj) (x : List ℝ) : Except Err (ℝ × ℝ) := do
  let fx ← o.callArr x
  darboux (.vals fx) x

/-! ## The same computation with rounding -/

/-- A summation order: a binary tree over the indices of the summands (`np.sum` uses pairwise
summation in blocks; any such scheme is a tree that depends on the length only). -/
inductive SumTree
  | leaf (i : ℕ)
  | node (l r : SumTree)

/-- Sum along a tree, rounding every addition. -/
def SumTree.eval (rnd : ℝ → ℝ) (v : ℕ → ℝ) : SumTree → ℝ
  | .leaf i => v i
  | .node l r => rnd (l.eval rnd v + r.eval rnd v)

/-- Computed lower sum, `ries/integration/darboux.py:69-77`, with every subtraction, product and
addition rounded by `rnd`; `x i`, `y i` are the grid points and function values. -/
def lowerRounded (rnd : ℝ → ℝ) (t : SumTree) (x y : ℕ → ℝ) : ℝ :=
  t.eval rnd (fun i => rnd (min (y i) (y (i + 1)) * rnd (x (i + 1) - x i)))

/-- Computed upper sum, `ries/integration/darboux.py:78`. -/
def upperRounded (rnd : ℝ → ℝ) (t : SumTree) (x y : ℕ → ℝ) : ℝ :=
  t.eval rnd (fun i => rnd (max (y i) (y (i + 1)) * rnd (x (i + 1) - x i)))

/-- Computed return value of `darboux`, `ries/integration/darboux.py:69-82`: lower sum and gap. -/
def darbouxRounded (rnd : ℝ → ℝ) (t : SumTree) (x y : ℕ → ℝ) : ℝ × ℝ :=
  (lowerRounded rnd t x y, |rnd (upperRounded rnd t x y - lowerRounded rnd t x y)|)

end Ries
