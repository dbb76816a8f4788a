import Verif.Model.CrossSection
import Verif.Model.Elements
import Verif.Model.XrmacReader
import Verif.Model.State

/-!
# Inputs of other types than the usual ones

numpy scalars as operands, lists of isotopes, arrays of attenuation data, and the sequence of edits of
the dictionary of partial widths.
-/

namespace Ries

open Text

/-! ## numpy scalars as operands -/

/-- An operand of cross-section arithmetic: a Python object, or a numpy scalar that is neither an
`int` nor a `float` instance (`np.int64`, `np.float32`, ...; `np.float64` is a `float`). -/
inductive NpOperand
  | py (o : Obj)
  | np (x : ℝ)

namespace NpOperand

/-- `a + b`. A numpy scalar on the left converts the other operand to a zero-dimensional object array
and applies Python's `+` to the corresponding Python number (numpy `binop_should_defer`: no deferral
to a class without `__array_ufunc__`/`__array_priority__`). A numpy scalar on the right reaches
`CrossSection.__add__` (`ries/cross_section.py:79-86`), where `isinstance(other, (int, float))` is
false, so that it becomes an entry of `reactions`; or `CrossSectionWeightedSum.__add__`
(`ries/cross_section.py:250-267`), whose last branch reads `other.reactions`. An entry of `reactions`
that is a numpy scalar behaves like one that is a number: it is not callable. -/
def add : NpOperand → NpOperand → Except Err Obj
  | py a, py b => Obj.add a b
  | np x, np y => .ok (.num (x + y))
  | np x, py b => Obj.add (.num x) b
  | py (.num y), np x => .ok (.num (y + x))
  | py (.wsum rs ss), np _ => do
      let _ ← Obj.pairScales rs ss
      .error .attributeError
  | py a, np x => .ok (.wsum [a, .num x] [.num 1, .num 1])

/-- `a * b`, `ries/cross_section.py:95-109, 276-302`: no type check; a numpy scalar multiplies
numbers like a Python number does. -/
def mul : NpOperand → NpOperand → Except Err Obj
  | py a, py b => Obj.mul a b
  | np x, np y => .ok (.num (x * y))
  | np x, py b => Obj.mul (.num x) b
  | py a, np x => Obj.mul a (.num x)

end NpOperand

/-! ## Isotopes given as an array -/

/-- The arguments `isotopes` and `abundances` of `Element` (`ries/constituents/element.py:69-88`):
two dictionaries, two Python lists, or two numpy arrays. Entries of the lists are the masses of the
isotopes, and the abundances. -/
inductive Composition
  | dicts (abundances : List (String × ℝ)) (isotopes : List (String × Option ℝ))
  | lists (abundances : List ℝ) (isotopes : List (Option ℝ))
  | arrays (abundances : List ℝ) (isotopes : List (Option ℝ))

/-- `amu_from_isotopic_composition`, `ries/constituents/element.py:104`:
`[isotopes[iso].amu * abundances[iso] for iso in isotopes]`. Iterating over a list or an array gives
`Isotope` objects; such an object as an index is a `TypeError` for a list and an `IndexError` for an
array. The sum of no terms is 0. -/
noncomputable def Composition.amu : Composition → Except Err ℝ
  | dicts ab iso => amuFromComposition ab iso
  | lists _ [] => .ok 0
  | lists _ (_ :: _) => .error .typeError
  | arrays _ [] => .ok 0
  | arrays _ (_ :: _) => .error .indexError

/-! ## Attenuation data given as an array -/

/-- The argument `data` of `XRMAC`: the content of the file of this name, or an array. -/
inductive XrmacInput
  | file (text : Str)
  | array (rows : Table)

/-- `XRMAC.__init__(data, energy_conversion, xrmac_conversion)`, `ries/nonresonant/xrmac.py:104-129`:
the conversions are used while reading a file only. -/
noncomputable def mkXrmac (input : XrmacInput) (ec xc : ℝ → ℝ) : Except Err Table :=
  match input with
  | .file text => (readXrmac ec xc text).map toTable
  | .array rows => .ok rows

/-! ## Editing a state after construction -/

/-- A `State` object: it holds a reference to the dictionary that was passed, and the number computed
from it. `ries/constituents/state.py:95-113`. -/
structure StateObj where
  Jpi : String
  twoJ : ℤ
  parity : ℤ
  exc : ℝ
  dict : ℕ
  width : ℝ

/-- Dictionaries by reference, and the states built so far. -/
structure StateWorld where
  dicts : ℕ → List (String × ℝ)
  states : List StateObj

/-- What a user does: build a state from a dictionary, or assign an item of a dictionary (through the
variable or through the attribute `partial_widths` of a state, which is the same object). -/
inductive StateStep
  | build (Jpi : String) (twoJ parity : ℤ) (exc : ℝ) (dict : ℕ)
  | assign (dict : ℕ) (key : String) (v : ℝ)

/-- Effect of one step. -/
noncomputable def StateWorld.step (W : StateWorld) : StateStep → StateWorld
  | .build J t p e d => { W with states := W.states ++ [⟨J, t, p, e, d, pyNumSum ((W.dicts d).map Prod.snd)⟩] }
  | .assign d k v => { W with dicts := Function.update W.dicts d (dictSet (W.dicts d) k v) }

/-- Effect of a program. -/
noncomputable def StateWorld.run (W : StateWorld) (steps : List StateStep) : StateWorld := steps.foldl StateWorld.step W

/-- `get_final_state_branching_ratio`, `ries/resonance/resonance.py:377-387`, of a resonance built now:
the current partial width over the stored width. -/
noncomputable def StateWorld.branching (W : StateWorld) (s : StateObj) (final : String) : Except Err ℝ := do
  let g ← lookup final (W.dicts s.dict)
  if s.width = 0 then .error .zeroDivision else .ok (g / s.width)

end Ries
