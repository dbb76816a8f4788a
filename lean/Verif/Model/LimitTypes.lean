import Verif.Model.Resonance
import Verif.Model.Grid

/-!
# Limits and coverages of other types than a Python number or a pair of them

The second argument of `equidistant_energy_grid` and `equidistant_probability_grid` by its Python type.
-/

namespace Ries

/-- An entry of a sequence of limits: an integer or a floating-point number. -/
inductive Entry
  | int (z : ℤ)
  | float (x : ℝ)

/-- the number -/
def Entry.val : Entry → ℝ
  | int z => z
  | float x => x

/-- The argument: a Python number, an `np.float64` (which is an instance of `float`), another numpy scalar or an array of zero
dimensions (which are neither instances of `int` nor of `float`), or a tuple, list or one-dimensional array. -/
inductive GridArg
  | py (x : ℝ)
  | float64 (x : ℝ)
  | scalar (x : ℝ)
  | seq (l : List Entry)

namespace GridArg

/-- `limits[0], limits[1]`: a Python number is not subscriptable; `IndexError` for numpy scalars ("invalid index to scalar
variable", "too many indices") and for short sequences. -/
def firstTwo : GridArg → Except Err (ℝ × ℝ)
  | py _ => .error .typeError
  | float64 _ => .error .indexError
  | scalar _ => .error .indexError
  | seq (a :: b :: _) => .ok (a.val, b.val)
  | seq _ => .error .indexError

end GridArg

/-- `CrossSection.equidistant_energy_grid`, `ries/cross_section.py:111-132`; the same for
`CrossSectionWeightedSum`, l.325-340, and for the probability grid of `Nonresonant`, `ries/nonresonant/nonresonant.py:29-37`. -/
noncomputable def energyGridArg (arg : GridArg) (n : ℤ) : Except Err (List Fl) := do
  let (a, b) ← arg.firstTwo
  linspace (.fin a) (.fin b) n

/-- `ConstantCrossSection.equidistant_probability_grid`, `ries/cross_section.py:195-200`: `np.linspace(*limits, n_points)`, with the
signature `linspace(start, stop, num=50, endpoint=True, ...)`. No number can be unpacked (`TypeError`). No limits: `stop` is
missing. One limit: `n_points` is `stop`. Three: the third is `num`, which has to be an integer, and `n_points` is `endpoint`;
without the endpoint the step is `(b - a) / num`. More than three entries are not modelled (reported as `runtimeError`). -/
noncomputable def constGridArg (arg : GridArg) (n : ℤ) : Except Err (List Fl) :=
  match arg with
  | .py _ => .error .typeError
  | .float64 _ => .error .typeError
  | .scalar _ => .error .typeError
  | .seq [] => .error .typeError
  | .seq [a] => linspace (.fin a.val) (.fin n) 50
  | .seq [a, b] => linspace (.fin a.val) (.fin b.val) n
  | .seq [_, _, .float _] => .error .typeError
  | .seq [a, b, .int num] =>
      if n = 0 then
        if num < 0 then .error .valueError
        else .ok ((List.range num.toNat).map fun i : ℕ => .fin (a.val + i * ((b.val - a.val) / num)))
      else linspace (.fin a.val) (.fin b.val) num
  | .seq _ => .error .runtimeError

namespace Reso

/-- `Resonance.equidistant_energy_grid`, `ries/resonance/resonance.py:325-327` -/
noncomputable def energyGridArg (r : Reso) (arg : GridArg) (n : ℤ) : Except Err (List Fl) :=
  match arg with
  | .py c => r.energyGrid (.cov c) n
  | .float64 c => r.energyGrid (.cov c) n
  | .scalar x => Ries.energyGridArg (.scalar x) n
  | .seq l => Ries.energyGridArg (.seq l) n

/-- `Resonance.equidistant_probability_grid`, `ries/resonance/resonance.py:345-366`: the distribution function of a sequence is an
array of the same length, the one of a scalar is an `np.float64`, of which no item can be read. -/
noncomputable def probGridArg (r : Reso) (arg : GridArg) (n : ℤ) : Except Err (Option (List Fl)) :=
  match arg with
  | .py c => r.probGrid (.cov c) n
  | .float64 c => r.probGrid (.cov c) n
  | .scalar x => do
      let _ ← r.dist.cdf r.params [x]
      .error .indexError
  | .seq l => do
      let lim ← r.dist.cdf r.params (l.map Entry.val)
      match lim, l with
      | l0 :: l1 :: _, a :: b :: _ => do
          let qs ← linspace l0 l1 n
          match ← r.dist.ppf r.params qs with
          | none => .error .typeError
          | some g => (setEnds (.fin a.val) (.fin b.val) g).map some
      | _, _ => .error .indexError

end Reso
end Ries
