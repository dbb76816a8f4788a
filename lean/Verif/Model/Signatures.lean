import Verif.Model.Num

/-! # Signatures of the methods of cross sections, and how Python binds the arguments of a call -/

namespace Ries.Sig

/-- A parameter of a Python function: its name, and whether it has a default. -/
structure Param where
  name : String
  hasDefault : Bool
  deriving DecidableEq, Repr

/-- The positional arguments of a call fill the parameters from the left; too many are a `TypeError`. -/
def fillPos {α : Type} : List Param → List α → Except Err (List (Param × Option α))
  | [], [] => .ok []
  | [], _ :: _ => .error .typeError
  | p :: ps, [] => (fillPos ps []).map ((p, none) :: ·)
  | p :: ps, v :: vs => (fillPos ps vs).map ((p, some v) :: ·)

/-- One keyword argument: no parameter of that name, or a parameter that has a value already, is a `TypeError`. -/
def setKw {α : Type} (key : String) (v : α) : List (Param × Option α) → Except Err (List (Param × Option α))
  | [] => .error .typeError
  | (p, o) :: t =>
      if p.name = key then
        match o with
        | none => .ok ((p, some v) :: t)
        | some _ => .error .typeError
      else (setKw key v t).map ((p, o) :: ·)

/-- All keyword arguments, in the order of the call. -/
def setKws {α : Type} : List (String × α) → List (Param × Option α) → Except Err (List (Param × Option α))
  | [], s => .ok s
  | (key, v) :: kw, s => do
      let s ← setKw key v s
      setKws kw s

/-- Parameters left without a value: `TypeError` unless they have a default (`none` in the result: the default is used). -/
def finish {α : Type} : List (Param × Option α) → Except Err (List (Option α))
  | [] => .ok []
  | (p, o) :: t =>
      if o.isNone && !p.hasDefault then .error .typeError
      else (finish t).map (o :: ·)

/-- Python's binding of the arguments of a call to the parameters (after `self`) of a function. -/
def bindArgs {α : Type} (sig : List Param) (pos : List α) (kw : List (String × α)) : Except Err (List (Option α)) := do
  let s ← fillPos sig pos
  let s ← setKws kw s
  finish s

/-- The classes of cross sections in `ries`. -/
inductive Cls
  | crossSection | constant | weightedSum | resonance | breitWigner | gauss | pseudoVoigt | voigt | nonresonant | xrmac | kleinNishina
  deriving DecidableEq, Repr

/-- The methods that several classes offer. -/
inductive Meth
  | call | energyGrid | probGrid | coverageInterval
  deriving DecidableEq, Repr

/-- parameter without default -/
def req (n : String) : Param := ⟨n, false⟩

/-- Methods defined in the body of a class: `cross_section.py:72, 111, 134` (`CrossSection`), `188, 195`
(`ConstantCrossSection`), `304, 325, 343` (`CrossSectionWeightedSum`); `resonance.py:241, 262, 309, 329`; `nonresonant.py:29`;
`xrmac.py:131`; `klein_nishina.py:121`. -/
def own : Cls → Meth → Option (List Param)
  | .crossSection, .call => some [req "E"]
  | .crossSection, .energyGrid => some [req "limits", req "n_points"]
  | .crossSection, .probGrid => some [req "limits", req "n_points"]
  | .constant, .call => some [req "energy"]
  | .constant, .probGrid => some [req "limits", req "n_points"]
  | .weightedSum, .call => some [req "energy"]
  | .weightedSum, .energyGrid => some [req "limits", req "n_points"]
  | .weightedSum, .probGrid => some [req "limits", req "n_points_per_cross_section"]
  | .resonance, .call => some [req "E", ⟨"input_is_absolute_energy", true⟩]
  | .resonance, .coverageInterval => some [req "coverage"]
  | .resonance, .energyGrid => some [req "coverage_or_limits", req "n_points"]
  | .resonance, .probGrid => some [req "coverage_or_limits", req "n_points"]
  | .nonresonant, .probGrid => some [req "limits", req "n_points"]
  | .xrmac, .call => some [req "E"]
  | .kleinNishina, .call => some [req "E"]
  | _, _ => none

/-- Method resolution order: `cross_section.py:174, 203` (weighted sums do not inherit from `CrossSection`),
`resonance.py:167`, `breit_wigner.py:79`, `gauss.py:42`, `pseudo_voigt.py:274`, `voigt.py:131`, `nonresonant.py:26`, `xrmac.py:69`, `klein_nishina.py:80`. -/
def mro : Cls → List Cls
  | .crossSection => [.crossSection]
  | .constant => [.constant, .crossSection]
  | .weightedSum => [.weightedSum]
  | .resonance => [.resonance, .crossSection]
  | .breitWigner => [.breitWigner, .resonance, .crossSection]
  | .gauss => [.gauss, .resonance, .crossSection]
  | .pseudoVoigt => [.pseudoVoigt, .resonance, .crossSection]
  | .voigt => [.voigt, .pseudoVoigt, .resonance, .crossSection]
  | .nonresonant => [.nonresonant, .crossSection]
  | .xrmac => [.xrmac, .nonresonant, .crossSection]
  | .kleinNishina => [.kleinNishina, .nonresonant, .crossSection]

/-- The signature that `obj.method` has for an object of a class. -/
def signature (c : Cls) (m : Meth) : Option (List Param) := (mro c).findSome? (own · m)

/-- `obj.method(*pos, **kw)`: the values bound to the parameters. A class without the method: `AttributeError`. -/
def call {α : Type} (c : Cls) (m : Meth) (pos : List α) (kw : List (String × α)) : Except Err (List (Option α)) :=
  match signature c m with
  | none => .error .attributeError
  | some sig => bindArgs sig pos kw

end Ries.Sig
