import Mathlib.MeasureTheory.Integral.IntervalIntegral.Basic

/-! # Iterated integral -/

namespace Ries

/-- Iterated integral of a function of positional arguments over a list of ranges; the first range is
integrated innermost, as documented for `scipy.integrate.nquad` and in the module docstring
`ries/integration/quad_partition.py:29`. -/
noncomputable def iterIntegral (f : List ℝ → ℝ) : List (ℝ × ℝ) → ℝ
  | [] => f []
  | (a, b) :: rest => iterIntegral (fun ys => ∫ x in a..b, f (x :: ys)) rest

/-- `f` is continuous as a function of `n` positional arguments. -/
def ContArgs (n : ℕ) (f : List ℝ → ℝ) : Prop :=
  Continuous (fun v : Fin n → ℝ => f (List.ofFn v))

/-- consecutive pieces of a partition -/
def pieces : List ℝ → List (ℝ × ℝ)
  | a :: b :: xs => (a, b) :: pieces (b :: xs)
  | _ => []

end Ries
