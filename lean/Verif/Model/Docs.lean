import Verif.Model.XrmacModule
import Verif.Model.Debye

/-!
# The examples in the documentation, as programs

A script is a list of `from module import name` and `print(...)` lines. What is modelled of Python: the names that a module defines, the
names that are visible in the script, and the three kinds of printed expressions that occur.
-/

namespace Ries.Docs

open Ries

/-- exceptions of scripts -/
inductive PyError
  | importError | nameError | of (e : Err)

/-- what a name can refer to; `other` is an object that the examples do not use -/
inductive Value
  | elements (els : List (Str × ElementObj))
  | debye
  | tables (d : List (Str × StoredXrmac))
  | other

/-- the data files, and the atomic mass constant in kg -/
structure Files where
  nist : Str
  dens : Str
  xrmac : ℕ → Str
  mu : ℝ

/-- the modules that occur in the examples -/
inductive Module
  | element | debyeModel | xrmac | naturalElementData

/-- exceptions while a module is imported are passed on -/
def liftErr {α : Type} : Except Err α → Except PyError α
  | .ok a => .ok a
  | .error e => .error (.of e)

/-- the names at the top level of a module after its import: `ries/constituents/element.py:45-121`, `ries/resonance/debye_model.py:58-181`,
`ries/nonresonant/xrmac.py:59-246`, `ries/constituents/natural_element_data.py:47-265` -/
noncomputable def namesOf (f : Files) : Module → Except PyError (List (String × Value))
  | .element => do
    let (_, els) ← liftErr (naturalElements f.nist f.dens)
    .ok [("Path", .other), ("np", .other), ("Geant4DensityDataReader", .other), ("NISTElementDataReader", .other), ("Element", .other),
      ("geant4_density_data_reader", .other), ("nist_element_data_reader", .other), ("X", .other), ("natural_elements", .elements els),
      ("Z", .other), ("abundances", .other), ("isotopes", .other), ("density", .other)]
  | .debyeModel => .ok [("np", .other), ("quad", .other), ("effective_temperature_debye_approximation", .other),
      ("room_temperature_T_D", .debye)]
  | .xrmac => do
    let (_, els) ← liftErr (naturalElements f.nist f.dens)
    let st ← liftErr (importXrmac f.nist f.dens f.xrmac f.mu)
    .ok [("Path", .other), ("np", .other), ("interp1d", .other), ("physical_constants", .other), ("natural_elements", .elements els),
      ("X", .other), ("Nonresonant", .other), ("XRMAC", .other), ("xrmac_data_dir", .other), ("xrmac_cm2_per_g", .tables st.perGram),
      ("xrmac_fm2_per_atom", .tables st.perAtom), ("cm_to_fm", .other), ("kg_to_g", .other), ("Z", .other)]
  | .naturalElementData => .ok [("Isotope", .other), ("NISTElementDataReader", .other), ("Geant4DensityDataReader", .other)]

/-- lines of a script: `from m import n`, `print(n[k].Z)`, `print(n[k])`, `print(n[k](E))` -/
inductive Line
  | fromImport (m : Module) (n : String)
  | printZ (n k : String)
  | printItem (n k : String)
  | printCall (n k : String) (E : ℝ)

/-- what is printed -/
inductive Out
  | int (n : ℤ)
  | num (x : Fl)
  | none

/-- the object that a name refers to -/
def name (env : List (String × Value)) (n : String) : Except PyError Value :=
  match env.find? (fun p => p.1 == n) with
  | some p => .ok p.2
  | Option.none => .error .nameError

/-- one line: the new names and the output -/
noncomputable def step (f : Files) (env : List (String × Value)) : Line → Except PyError (List (String × Value) × List Out)
  | .fromImport m n => do
    let ns ← namesOf f m
    match ns.find? (fun p => p.1 == n) with
    | some p => .ok ((n, p.2) :: env, [])
    | Option.none => .error .importError
  | .printZ n k => do
    match ← name env n with
    | .elements els =>
      let e ← liftErr (dictGet k.toList els)
      .ok (env, [.int e.Z])
    | _ => .error (.of .attributeError)
  | .printItem n k => do
    match ← name env n with
    | .debye => do
      match ← liftErr (lookupTD k) with
      | some T => .ok (env, [.num (.fin T)])
      | Option.none => .ok (env, [.none])
    | _ => .error (.of .typeError)
  | .printCall n k E => do
    match ← name env n with
    | .tables d =>
      let o ← liftErr (dictGet k.toList d)
      let v ← liftErr (o.call E)
      .ok (env, [.num v])
    | _ => .error (.of .typeError)

/-- a script -/
noncomputable def run (f : Files) : List (String × Value) → List Line → Except PyError (List Out)
  | _, [] => .ok []
  | env, l :: ls => do
    let (env, o) ← step f env l
    let os ← run f env ls
    .ok (o ++ os)

/-- `ries/constituents/element.py:35-37` -/
def elementExample : List Line := [.fromImport .element "natural_elements", .printZ "natural_elements" "Pb"]

/-- `ries/resonance/debye_model.py:53-55` -/
def debyeExample : List Line := [.fromImport .debyeModel "room_temperature_T_D", .printItem "room_temperature_T_D" "B"]

/-- `ries/nonresonant/xrmac.py:47-49` -/
def xrmacExample : List Line := [.fromImport .xrmac "xrmac", .printCall "xrmac_cm2_per_g" "Pb" 1]

end Ries.Docs
