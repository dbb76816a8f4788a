import Verif.Model.Text
import Mathlib.Algebra.BigOperators.Group.List.Basic
import Mathlib.Data.Nat.Digits.Defs

/-!
# Model of `ries/constituents/natural_element_data.py` and `ries/constituents/element.py`

Files are given by their text.  Decimal numbers are read exactly (the rounding to binary floating
point is not modelled).  A Python dictionary is an association list in insertion order.
-/

namespace Ries

open Text

/-! ## Dictionaries -/

/-- `d[k] = v`: an existing key keeps its place -/
def dictSet {κ α : Type} [DecidableEq κ] (d : List (κ × α)) (k : κ) (v : α) : List (κ × α) :=
  if k ∈ d.map Prod.fst then d.map fun p => if p.1 = k then (k, v) else p else d ++ [(k, v)]

/-- `d[k]` -/
def dictGet {κ α : Type} [DecidableEq κ] (k : κ) : List (κ × α) → Except Err α
  | [] => .error .keyError
  | p :: d => if p.1 = k then .ok p.2 else dictGet k d

/-! ## NIST reader -/

/-- `self.Z_prefix`, `natural_element_data.py:79` -/
def zPrefix : Str := "Atomic Number = ".toList
/-- `self.A_prefix`, `natural_element_data.py:80` -/
def aPrefix : Str := "Mass Number = ".toList
/-- `self.X_prefix`, `natural_element_data.py:81` -/
def xPrefix : Str := "Atomic Symbol = ".toList
/-- `self.amu_prefix`, `natural_element_data.py:82` -/
def amuPrefix : Str := "Relative Atomic Mass = ".toList
/-- `self.abundance_prefix`, `natural_element_data.py:83` -/
def abundancePrefix : Str := "Isotopic Composition = ".toList

/-- `read_nist_element_property`, `natural_element_data.py:132-153`; `conv` is `property_type`,
`default` the default value (`none` for Python's `None`). -/
def readProperty {α : Type} (line pre : Str) (conv : Str → Except Err α) (default : Option α) :
    Except Err (Option α) :=
  let prop := slice line pre.length 1
  if prop ≠ [] then (conv prop).map some else .ok default

/-- `line[0 : line.find("(") + 1]` -/
def upToParen (line : Str) : Str :=
  match find '(' line with
  | none => []
  | some i => line.take (i + 1)

/-- `read_nist_element_property_with_uncertainty`, `natural_element_data.py:155-179` -/
def readPropertyUnc (line pre : Str) (default : Option ℚ) : Except Err (Option ℚ) :=
  readProperty (upToParen line) pre parseFloat default

/-- `"{:d}".format(n)` -/
def formatD (n : ℤ) : Str := if n < 0 then '-' :: Nat.toDigits 10 n.natAbs else Nat.toDigits 10 n.natAbs

/-- `"{:d}{}".format(A, X)`, `natural_element_data.py:125`; `None` cannot be formatted with `d`. -/
def formatAX (A : Option ℤ) (X : Option Str) : Except Err Str :=
  match A with
  | none => .error .typeError
  | some A => .ok (formatD A ++ match X with
    | none => "None".toList
    | some X => X)

/-- The local variables of `read_nist_element_data`; `none` is an unbound variable.  (`currentZ`
cannot be `None` after the comparison `current_Z < Z`.)  The dictionary `isotopes` is represented by
the masses of its `Isotope` objects, whose name is the key. -/
structure NistState where
  currentZ : Option ℤ := none
  X : Option (Option Str) := none
  A : Option (Option ℤ) := none
  amu : Option (Option ℚ) := none
  abundances : List (Str × ℚ) := []
  isotopes : List (Str × Option ℚ) := []

/-- an unbound local variable raises `UnboundLocalError` -/
def bound {α : Type} : Option α → Except Err α
  | none => .error .unboundLocal
  | some a => .ok a

/-- lines 121-127: an abundance line completes an isotope -/
def nistAbundance (line : Str) (st : NistState) : Except Err NistState := do
  let ab ← readPropertyUnc line abundancePrefix (some 0)
  let A ← bound st.A
  let X ← bound st.X
  let AX ← formatAX A X
  let amu ← bound st.amu
  -- the default of an abundance is 0.0, so `ab` is never `None`
  .ok { st with
    abundances := dictSet st.abundances AX (ab.getD 0)
    isotopes := dictSet st.isotopes AX amu }

/-- `for line in file`, `natural_element_data.py:104-127` -/
def nistLoop (Z : ℤ) : List Str → NistState → Except Err NistState
  | [], st => .ok st
  | line :: rest, st =>
    if contains zPrefix line then do
      match ← readProperty line zPrefix parseInt none with
      | none => .error .typeError
      | some z =>
        let st := { st with currentZ := some z }
        if z < Z then nistLoop Z rest st
        else if z > Z then .ok st
        else nistLoop Z rest st
    else do
      let st ←
        if contains xPrefix line then do
          let z ← bound st.currentZ
          if z = Z then do
            let X ← readProperty line xPrefix (fun s => .ok s) none
            .ok { st with X := some X }
          else nistOther1 Z line st
        else nistOther1 Z line st
      nistLoop Z rest st
where
  /-- the branches from line 115 on -/
  nistOther1 (Z : ℤ) (line : Str) (st : NistState) : Except Err NistState :=
    if contains aPrefix line then do
      let z ← bound st.currentZ
      if z = Z then do
        let A ← readProperty line aPrefix parseInt none
        .ok { st with A := some A }
      else nistOther2 Z line st
    else nistOther2 Z line st
  /-- the branches from line 117 on -/
  nistOther2 (Z : ℤ) (line : Str) (st : NistState) : Except Err NistState :=
    if contains amuPrefix line then do
      let z ← bound st.currentZ
      if z = Z then do
        let amu ← readPropertyUnc line amuPrefix none
        .ok { st with amu := some amu }
      else nistOther3 Z line st
    else nistOther3 Z line st
  /-- the branch of line 121 -/
  nistOther3 (Z : ℤ) (line : Str) (st : NistState) : Except Err NistState :=
    if contains abundancePrefix line then do
      let z ← bound st.currentZ
      if z = Z then nistAbundance line st else .ok st
    else .ok st

/-- `read_nist_element_data(Z)`, `natural_element_data.py:85-129`: the dictionaries of abundances and
of isotope masses -/
def readNist (text : Str) (Z : ℤ) : Except Err (List (Str × ℚ) × List (Str × Option ℚ)) := do
  let st ← nistLoop Z (lines text) {}
  .ok (st.abundances, st.isotopes)

/-- The loop of `read_nist_element_symbols`, `natural_element_data.py:198-204`.  The first argument
is the local variable `Z` (`none`: unbound; `some none`: `None`). -/
def symbolLoop : List Str → Option (Option ℤ) → List (Option ℤ × Option Str) →
    Except Err (List (Option ℤ × Option Str))
  | [], _, d => .ok d
  | line :: rest, Z, d => do
    let Z ← if contains zPrefix line then do
        let z ← readProperty line zPrefix parseInt none
        .ok (some z)
      else .ok Z
    if contains xPrefix line then do
      let z ← bound Z
      if z ∈ d.map Prod.fst then symbolLoop rest Z d
      else do
        let X ← readProperty line xPrefix (fun s => .ok s) none
        symbolLoop rest Z (dictSet d z X)
    else symbolLoop rest Z d

/-- `read_nist_element_symbols()`, `natural_element_data.py:181-205` -/
def readSymbols (text : Str) : Except Err (List (Option ℤ × Option Str)) :=
  symbolLoop (lines text) none []

/-! ## Density reader -/

/-- `for line in file`, `natural_element_data.py:261-265` -/
def densityLoop {α : Type} (conv : ℚ → α) (X : Str) : List Str → Except Err (Option α)
  | [] => .ok none
  | line :: rest =>
    if contains X (line.take 2) then (parseFloat (line.drop 2)).map fun rho => some (conv rho)
    else densityLoop conv X rest

/-- `read_density_data(X)`, `natural_element_data.py:242-265`; `conv` is `self.density_conversion` -/
def readDensity {α : Type} (conv : ℚ → α) (text X : Str) : Except Err (Option α) :=
  densityLoop conv X (lines text)

/-! ## Elements -/

/-- `isotopes[iso].amu * abundances[iso]`; a missing abundance is a `KeyError`, a mass `None` a
`TypeError` -/
def amuTerm {α κ : Type} [DecidableEq κ] [Mul α] (abundances : List (κ × α))
    (p : κ × Option α) : Except Err α := do
  let ab ← dictGet p.1 abundances
  match p.2 with
  | none => .error .typeError
  | some m => .ok (m * ab)

/-- `Element.amu_from_isotopic_composition`, `ries/constituents/element.py:90-104` -/
def amuFromComposition {α κ : Type} [DecidableEq κ] [Add α] [Zero α] [Mul α]
    (abundances : List (κ × α)) (isotopes : List (κ × Option α)) : Except Err α := do
  let terms ← isotopes.mapM (amuTerm abundances)
  .ok terms.sum

/-- An `Element` object, `ries/constituents/element.py:55-88`. -/
structure ElementObj where
  Z : ℤ
  X : Str
  isotopes : List (Str × Option ℚ)
  abundances : List (Str × ℚ)
  density : Option ℚ
  amu : ℚ
  deriving DecidableEq

/-- One iteration of the module loop, `ries/constituents/element.py:119-121`. -/
def elementStep (nist dens : Str) (syms : List (Option ℤ × Option Str))
    (d : List (Str × ElementObj)) (Z : ℤ) : Except Err (List (Str × ElementObj)) := do
  let (ab, iso) ← readNist nist Z
  match ← dictGet (some Z) syms with
  | none => .error .typeError
  | some X =>
    let rho ← readDensity id dens X
    let amu ← amuFromComposition ab iso
    .ok (dictSet d X ⟨Z, X, iso, ab, rho, amu⟩)

/-- The module variables `X` and `natural_elements`, `ries/constituents/element.py:115-121`. -/
def naturalElements (nist dens : Str) :
    Except Err (List (Option ℤ × Option Str) × List (Str × ElementObj)) := do
  let syms ← readSymbols nist
  let els ← ((List.range' 1 118).map fun n : ℕ => (n : ℤ)).foldlM (elementStep nist dens syms) []
  .ok (syms, els)

end Ries
