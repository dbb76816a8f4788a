import Verif.Model.Num
import Mathlib.Algebra.BigOperators.Group.List.Basic

/-! # Model of `ries/constituents/state.py` -/

namespace Ries

/-- A `GroundState` (`widths = none`, no attribute `partial_widths`/`width`) or a `State`.
`ries/constituents/state.py:41-113`. The dictionary of partial widths is an association list. -/
structure Level where
  Jpi : String
  twoJ : ℤ
  parity : ℤ
  exc : ℝ
  widths : Option (List (String × ℝ))

/-- `GroundState(J_pi, two_J, parity)`, `ries/constituents/state.py:64-76`. -/
def groundState (Jpi : String) (twoJ parity : ℤ) : Level := ⟨Jpi, twoJ, parity, 0, none⟩

/-- `State(J_pi, two_J, parity, excitation_energy, partial_widths)`,
`ries/constituents/state.py:95-113`. -/
def state (Jpi : String) (twoJ parity : ℤ) (exc : ℝ) (pw : List (String × ℝ)) : Level :=
  ⟨Jpi, twoJ, parity, exc, some pw⟩

/-- dictionary access `d[key]` -/
def lookup (key : String) : List (String × ℝ) → Except Err ℝ
  | [] => .error .keyError
  | (k, v) :: rest => if k = key then .ok v else lookup key rest

/-- Python's built-in `sum` of a list of numbers, started at 0, left to right. -/
def pyNumSum (l : List ℝ) : ℝ := l.foldl (· + ·) 0

/-- attribute `partial_widths`; `AttributeError` on a ground state -/
def Level.partialWidths (l : Level) : Except Err (List (String × ℝ)) :=
  match l.widths with
  | none => .error .attributeError
  | some pw => .ok pw

/-- attribute `width`, `ries/constituents/state.py:113`:
`sum([partial_widths[state] for state in partial_widths])` -/
def Level.width (l : Level) : Except Err ℝ := do
  let pw ← l.partialWidths
  let vs ← pw.mapM (fun kv => lookup kv.1 pw)
  .ok (pyNumSum vs)

end Ries
