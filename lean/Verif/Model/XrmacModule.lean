import Verif.Model.XrmacReader
import Verif.Model.Elements

/-!
# Model of the module variables of `ries/nonresonant/xrmac.py`

The dictionaries `xrmac_cm2_per_g` and `xrmac_fm2_per_atom`, filled by a loop when the module is
imported.  A symbol `None` (an atomic number without symbol in the file) is not modelled as a key;
it is an error here.  The masses are looked up before the file is read instead of at each line.
-/

namespace Ries

open Text

/-- A stored `XRMAC` object: its data, and its attribute `xrmac_conversion`.  The latter may be a
closure over the *global variable* `Z`, so what it computes depends on the value of `Z` at the time
of the call (first argument). -/
structure StoredXrmac where
  data : List Row3
  conversion : ℕ → ℝ → Except Err ℝ

/-- Calling a stored object, `ries/nonresonant/xrmac.py:131-144`. -/
noncomputable def StoredXrmac.call (o : StoredXrmac) (E : ℝ) : Except Err Fl :=
  xrmacCall (toTable o.data) E

/-- State of the module while it is executed: the global variable `Z` and the two dictionaries. -/
structure ModState where
  Z : ℕ
  perGram : List (Str × StoredXrmac)
  perAtom : List (Str × StoredXrmac)

/-- `natural_elements[X[Z]].amu`, `ries/nonresonant/xrmac.py:243` -/
noncomputable def massOf (syms : List (Option ℤ × Option Str)) (els : List (Str × ElementObj))
    (Z : ℕ) : Except Err ℝ := do
  match ← dictGet (some (Z : ℤ)) syms with
  | none => .error .keyError
  | some X =>
    let e ← dictGet X els
    .ok (e.amu : ℝ)

/-- the conversion factor cm²/g to fm²/atom for a mass `amu` in atomic mass units;
`ries/nonresonant/xrmac.py:241-245`, `mu` is the atomic mass constant in kg -/
noncomputable def fm2PerAtom (mu amu : ℝ) : ℝ := (1e13 : ℝ) ^ 2 * amu * mu * 1e3

/-- the function `lambda xrmac: …`, `ries/nonresonant/xrmac.py:241-245`, as a function of the global
variable `Z` and its argument -/
noncomputable def atomConversion (syms : List (Option ℤ × Option Str))
    (els : List (Str × ElementObj)) (mu : ℝ) (Z : ℕ) (y : ℝ) : Except Err ℝ := do
  let m ← massOf syms els Z
  .ok (y * fm2PerAtom mu m)

/-- One iteration of the loop for `Z = z`, `ries/nonresonant/xrmac.py:238-246`: the file is read
twice, first without conversion, then with the conversion evaluated at the present value of `Z`;
the second object keeps the closure. -/
noncomputable def moduleStep (syms : List (Option ℤ × Option Str)) (els : List (Str × ElementObj))
    (file : ℕ → Str) (mu : ℝ) (st : ModState) (z : ℕ) : Except Err ModState := do
  match ← dictGet (some (z : ℤ)) syms with
  | none => .error .typeError
  | some X =>
    let r1 ← readXrmac id id (file z)
    let m ← massOf syms els z
    let r2 ← readXrmac id (fun y => y * fm2PerAtom mu m) (file z)
    .ok ⟨z, dictSet st.perGram X ⟨r1, fun _ y => .ok y⟩,
      dictSet st.perAtom X ⟨r2, atomConversion syms els mu⟩⟩

/-- `for Z in range(1, 93)`, `ries/nonresonant/xrmac.py:237`; the initial value of `Z` is
irrelevant. -/
noncomputable def moduleLoop (syms : List (Option ℤ × Option Str)) (els : List (Str × ElementObj))
    (file : ℕ → Str) (mu : ℝ) : Except Err ModState :=
  (List.range' 1 92).foldlM (moduleStep syms els file mu) ⟨0, [], []⟩

/-- Importing `ries.nonresonant.xrmac` (which imports `ries.constituents.element`): from the texts
of all data files to the module variables. -/
noncomputable def importXrmac (nist dens : Str) (file : ℕ → Str) (mu : ℝ) : Except Err ModState := do
  let (syms, els) ← naturalElements nist dens
  moduleLoop syms els file mu

end Ries
