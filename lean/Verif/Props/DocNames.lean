import Verif.Props.Docs
import Verif.Props.Debye
import Verif.Model.DebyeArray

/-! # C146: effective temperatures of the elements in the table. C147: the dictionaries named in the documentation exist -/

namespace Ries

open Docs

/-- elements in the table without a Debye temperature -/
def withoutTD : List String := ["Am", "Ar", "Cm", "Eu", "Fr", "H", "I", "Kr", "Ne", "Ra", "Se", "Te", "Xe", "Yb"]

theorem lookupTD_of_mem {kv : String × Option ℕ} (h : kv ∈ roomTemperatureTD) : lookupTD kv.1 = .ok kv.2 := by
  have : ∀ kv ∈ roomTemperatureTD, roomTemperatureTD.find? (fun k => k.1 = kv.1) = some kv := by decide +kernel
  simp [lookupTD, this kv h]

/-- C146 is false of the code: hydrogen and 13 other elements of the table have no number there, and the effective temperature
raises `TypeError` for every temperature. -/
theorem C146_refuted (T : ℝ) : (∃ kv ∈ roomTemperatureTD, kv.1 = "H") ∧ withoutTD.Nodup ∧
    ∀ X ∈ withoutTD, X ∈ roomTemperatureTD.map Prod.fst ∧ elementEffectiveTemperature T X = .error .typeError := by
  have key : ∀ X ∈ withoutTD, (X, none) ∈ roomTemperatureTD := by decide +kernel
  refine ⟨by decide +kernel, by decide +kernel, fun X hX => ⟨List.mem_map.2 ⟨_, key X hX, rfl⟩, ?_⟩⟩
  simp [elementEffectiveTemperature, lookupTD_of_mem (key X hX), bind, Except.bind]

/-- C146, the part that holds: for all other keys the effective temperature is a number, larger than the temperature and than 3/8 of the
Debye temperature in the table. Missing: the elements `withoutTD`, see `C146_refuted`. -/
theorem C146_partial {T : ℝ} (hT : 0 < T) {X : String} (hX : X ∈ roomTemperatureTD.map Prod.fst) :
    (∃ Te, elementEffectiveTemperature T X = .ok Te) ∧ X ∉ withoutTD ∧
      (∃ (TD : ℕ) (Te : ℝ), (X, some TD) ∈ roomTemperatureTD ∧ elementEffectiveTemperature T X = .ok Te ∧ T < Te ∧ 3 / 8 * (TD : ℝ) < Te) ∨
    (¬ ∃ Te, elementEffectiveTemperature T X = .ok Te) ∧ X ∈ withoutTD := by
  obtain ⟨⟨X, v⟩, hm, rfl⟩ := List.mem_map.1 hX
  have hl := lookupTD_of_mem hm
  cases v with
  | none =>
    right
    have : ∀ kv ∈ roomTemperatureTD, kv.2 = none → kv.1 ∈ withoutTD := by decide +kernel
    refine ⟨?_, this _ hm rfl⟩
    rintro ⟨Te, h⟩
    simp only at hl
    simp [elementEffectiveTemperature, hl, bind, Except.bind] at h
  | some TD =>
    left
    have hn : ∀ kv ∈ roomTemperatureTD, kv.2 ≠ none → kv.1 ∉ withoutTD := by decide +kernel
    have hp : 0 < TD := C39_partial.2.2 _ hm TD rfl
    obtain ⟨Te, h1, h2, -⟩ := C36_bounds hT (Nat.cast_pos.2 hp : (0 : ℝ) < TD)
    have e : elementEffectiveTemperature T X = .ok Te := by
      simp only at hl
      simp [elementEffectiveTemperature, hl, bind, Except.bind, h1]
    exact ⟨⟨Te, e⟩, hn _ hm (by simp), TD, Te, hm, e, (max_lt_iff.1 h2).1, (max_lt_iff.1 h2).2⟩

/-- Tin is in the table with a temperature. -/
example : "Sn" ∈ roomTemperatureTD.map Prod.fst ∧ "Sn" ∉ withoutTD := by decide +kernel

/-- the script `from m import n` runs through -/
def ImportWorks (f : Files) (m : Docs.Module) (n : String) : Prop := run f [] [.fromImport m n] = .ok []

/-- C147 is false of the code: the dictionary `natural_element_densities`, named in the documentation of
`ries.constituents.natural_element_data`, is neither in this module nor in another one with data, whatever the data files contain. -/
theorem C147_refuted (f : Files) (m : Docs.Module) : ¬ ImportWorks f m "natural_element_densities" := by
  intro h
  cases m <;> simp only [ImportWorks, run, step, namesOf, bind, Except.bind] at h
  · cases h1 : naturalElements f.nist f.dens <;> simp [h1, liftErr] at h
  · simp at h
  · cases h1 : naturalElements f.nist f.dens <;> simp [h1, liftErr] at h
    cases h2 : importXrmac f.nist f.dens f.xrmac f.mu <;> simp [h2] at h
  · simp at h

theorem importWorks_of {f : Files} {st : ModState} (hst : importXrmac f.nist f.dens f.xrmac f.mu = .ok st) :
    ImportWorks f .element "natural_elements" ∧ ImportWorks f .debyeModel "room_temperature_T_D" ∧
    ImportWorks f .xrmac "xrmac_cm2_per_g" ∧ ImportWorks f .xrmac "xrmac_fm2_per_atom" := by
  cases h : naturalElements f.nist f.dens with
  | error e => simp [importXrmac, h, bind, Except.bind] at hst
  | ok p => refine ⟨?_, ?_, ?_, ?_⟩ <;> simp [ImportWorks, run, step, namesOf, h, hst, liftErr, bind, Except.bind]

/-- C147, the part that holds: the other four dictionaries can be imported, with the shipped files. Missing: see `C147_refuted`. -/
theorem C147_partial (mu : ℝ) : ImportWorks (shippedFiles mu) .element "natural_elements" ∧
    ImportWorks (shippedFiles mu) .debyeModel "room_temperature_T_D" ∧ ImportWorks (shippedFiles mu) .xrmac "xrmac_cm2_per_g" ∧
    ImportWorks (shippedFiles mu) .xrmac "xrmac_fm2_per_atom" := by
  obtain ⟨st, hst, -⟩ := C74_shipped mu
  exact importWorks_of (f := shippedFiles mu) hst

end Ries
