import Verif.Model.Num
import Mathlib.Analysis.SpecialFunctions.Pow.Real

/-! # Model of `ries/integration/quad_partition.py` -/

namespace Ries

/-- `scipy.integrate.nquad(f, ranges)` as a parameter: integrand on positional arguments, list of
integration ranges, returns (integral, absolute error estimate). -/
abbrev NQuad := (List ℝ → ℝ) → List (ℝ × ℝ) → ℝ × ℝ

/-- The optional argument `x1_to_xn_minus_1`. -/
inductive LimArg
  | none
  | list (l : List (ℝ × ℝ))
  /-- a numpy array of shape `(k, 2)` -/
  | ndarray (l : List (ℝ × ℝ))

/-- `x1_to_xn_minus_1 or []`, `ries/integration/quad_partition.py:70`. The truth value of a numpy
array with more than one element is a `ValueError`; that of an empty one is false. -/
def LimArg.orEmpty : LimArg → Except Err (List (ℝ × ℝ))
  | .none => .ok []
  | .list l => .ok l
  | .ndarray [] => .ok []
  | .ndarray (_ :: _) => .error .valueError

/-- The loop `ries/integration/quad_partition.py:72-75`; state is (integral, sum of squares). -/
def quadLoop (nquad : NQuad) (f : List ℝ → ℝ) (rest : List (ℝ × ℝ)) : List ℝ → ℝ × ℝ → ℝ × ℝ
  | a :: b :: xs, (s, u) =>
      let r := nquad f ((a, b) :: rest)
      quadLoop nquad f rest (b :: xs) (s + r.1, u + r.2 * r.2)
  | _, su => su

/-- `quad_partition(f, x0, x1_to_xn_minus_1)`, `ries/integration/quad_partition.py:54-77`. -/
noncomputable def quadPartition (nquad : NQuad) (f : List ℝ → ℝ) (x0 : List ℝ) (lim : LimArg) :
    Except Err (ℝ × ℝ) := do
  let rest ← lim.orEmpty
  let r := quadLoop nquad f rest x0 (0, 0)
  .ok (r.1, Real.sqrt r.2)

/-! ## Shapes of the partition -/

/-- The argument `x0` as an array: one-dimensional, or two-dimensional given by its rows. -/
inductive X0Arg
  | vector (x : List ℝ)
  | matrix (rows : List (List ℝ))

/-- the entry of an array with one entry -/
def single : List ℝ → Option ℝ
  | [x] => some x
  | _ => none

/-- `quad_partition` on arrays of one or two dimensions, `quad_partition.py:68-77`: `len(x0)` is the number of rows of a two-dimensional
array, so that the loop over `range(len(x0) - 1)` has no iteration if there is at most one row. With more rows, `nquad` is called with
rows as limits. It passes them to `quad`, which compares them (`min(a, b)`): `ValueError` for rows with several entries. Rows with one entry
are converted to numbers. (Rows without entries depend on the version of numpy; here they are a `ValueError`, too.) -/
noncomputable def quadPartitionAny (nquad : NQuad) (f : List ℝ → ℝ) (x0 : X0Arg) (lim : LimArg) : Except Err (ℝ × ℝ) :=
  match x0 with
  | .vector x => quadPartition nquad f x lim
  | .matrix rows => do
      let rest ← lim.orEmpty
      if rows.length ≤ 1 then .ok (0, Real.sqrt 0)
      else match rows.mapM single with
        | some x =>
            let r := quadLoop nquad f rest x (0, 0)
            .ok (r.1, Real.sqrt r.2)
        | none => .error .valueError

/-! ## The same computation with rounding -/

/-- The loop `quad_partition.py:72-75` with every addition and product rounded by `fl`. -/
def quadLoopR (fl : ℝ → ℝ) (nquad : NQuad) (f : List ℝ → ℝ) (rest : List (ℝ × ℝ)) : List ℝ → ℝ × ℝ → ℝ × ℝ
  | a :: b :: xs, (s, u) =>
      let r := nquad f ((a, b) :: rest)
      quadLoopR fl nquad f rest (b :: xs) (fl (s + r.1), fl (u + fl (r.2 * r.2)))
  | _, su => su

/-- `quad_partition`, `quad_partition.py:54-77`, with every operation rounded; the square root is rounded as well. -/
noncomputable def quadPartitionR (fl : ℝ → ℝ) (nquad : NQuad) (f : List ℝ → ℝ) (x0 : List ℝ) (lim : LimArg) : Except Err (ℝ × ℝ) := do
  let rest ← lim.orEmpty
  let r := quadLoopR fl nquad f rest x0 (0, 0)
  .ok (r.1, fl (Real.sqrt r.2))

end Ries
