import Verif.Lemmas.ShippedData
import Mathlib.Tactic.NormNum

/-!
# C58, C60 (shipped data), C72: the module variables of `ries.constituents.element`
-/

namespace Ries

open Text

set_option maxRecDepth 100000

/-! ## C72 -/

/-- C72: for all files that meet the conditions `Importable`, the module can be imported: there is
exactly one element for every atomic number from 1 to 118, stored under its symbol, and `X` maps its
atomic number to this symbol. -/
theorem C72_import {f : NistFile} {g : DensFile} {sym : ℕ → Str} (h : Importable f g sym) :
    ∃ syms els, naturalElements f.render g.render = .ok (syms, els) ∧
      els.map Prod.fst = (List.range' 1 118).map sym ∧
      ∀ Z ∈ List.range' 1 118, dictGet (some (Z : ℤ)) syms = .ok (some (sym Z)) ∧
        ∃ e, dictGet (sym Z) els = .ok e ∧ e.Z = Z ∧ e.X = sym Z ∧
          e.abundances.map Prod.fst = (f.isotopesOf Z).map Para.name ∧
          e.isotopes.map Prod.fst = (f.isotopesOf Z).map Para.name := by
  obtain ⟨syms, h1, h2⟩ := naturalElements_ok h
  refine ⟨syms, _, h1, by rw [List.map_map]; rfl, fun Z hZ => ⟨h2 Z hZ, ?_⟩⟩
  refine ⟨expectedElement f g sym Z, dictGet_eq (by rw [List.map_map]; exact h.distinct) ?_, rfl, rfl,
    ?_, ?_⟩
  · exact List.mem_map.2 ⟨Z, hZ, rfl⟩
  · simp [expectedElement, Function.comp, Para.abEntry]
  · simp [expectedElement, Function.comp, Para.isoEntry]

/-- C72 for the shipped files. -/
theorem C72_shipped : ∃ syms els,
    naturalElements shippedNist.render shippedDensities.render = .ok (syms, els) ∧
      els.map Prod.fst = (List.range' 1 118).map symbolOf :=
  let ⟨syms, els, h, h2, _⟩ := C72_import shipped_importable
  ⟨syms, els, h, h2⟩

example : symbolOf 1 = "H".toList ∧ symbolOf 82 = "Pb".toList ∧ symbolOf 118 = "Og".toList := by
  decide +kernel

/-! ## C58 -/

/-- some isotope of the element has an isotopic composition in the shipped file -/
def Tabulated (Z : ℕ) : Prop := ∃ p ∈ shippedNist.isotopesOf Z, p.comp.written ≠ none

instance (Z : ℕ) : Decidable (Tabulated Z) := by unfold Tabulated; infer_instance

/-- the elements whose single natural isotope is listed with composition 1, without uncertainty -/
def singleIsotope : List ℕ :=
  [4, 9, 11, 13, 15, 21, 25, 27, 33, 39, 41, 45, 53, 55, 59, 65, 67, 69, 79, 83, 90, 91]

/-- the mass of an isotope as written in the file -/
def writtenMass (p : Para) : ℚ := p.amu.written.getD 0

/-- all bounds at once -/
def checkMass (Z : ℕ) : Bool :=
  let ps := shippedNist.isotopesOf Z
  let m : ℚ := (ps.map fun p => p.mass * p.ab).sum
  if decide (Tabulated Z) && !(singleIsotope.contains Z) then
    decide (0 < m) && (ps.any fun p => decide (writtenMass p ≤ m)) &&
      ps.any fun p => decide (m ≤ writtenMass p)
  else decide (m = 0)

theorem shipped_masses : ∀ Z ∈ List.range' 1 118, checkMass Z = true := by decide +kernel

/-- C58, proved part: every element of the shipped file with a tabulated isotopic composition, except
22 elements with a single natural isotope, has a positive mass between the masses of two of its
isotopes.  These 22 elements, and all elements without tabulated composition, have the mass 0.
Missing for the full statement: the 22 elements, for which it is false (`C58_refuted`). -/
theorem C58_partial : ∃ syms els,
    naturalElements shippedNist.render shippedDensities.render = .ok (syms, els) ∧
    ∀ Z ∈ List.range' 1 118, ∃ e, dictGet (symbolOf Z) els = .ok e ∧ e.Z = Z ∧
      (Tabulated Z → Z ∉ singleIsotope → 0 < e.amu ∧
        (∃ p ∈ shippedNist.isotopesOf Z, writtenMass p ≤ e.amu) ∧
        ∃ p ∈ shippedNist.isotopesOf Z, e.amu ≤ writtenMass p) ∧
      (¬ Tabulated Z ∨ Z ∈ singleIsotope → e.amu = 0) := by
  obtain ⟨syms, h1, h2⟩ := naturalElements_ok shipped_importable
  refine ⟨syms, _, h1, fun Z hZ => ⟨expectedElement shippedNist shippedDensities symbolOf Z,
    dictGet_eq (by rw [List.map_map]; exact shipped_distinct) (List.mem_map.2 ⟨Z, hZ, rfl⟩), rfl, ?_⟩⟩
  have h := shipped_masses Z hZ
  unfold checkMass at h
  split_ifs at h with hc
  · simp only [Bool.and_eq_true, decide_eq_true_eq, Bool.not_eq_true', List.contains_eq_mem,
      decide_eq_false_iff_not] at hc
    simp only [Bool.and_eq_true, decide_eq_true_eq, List.any_eq_true] at h
    refine ⟨fun _ _ => ⟨h.1.1, h.1.2, h.2⟩, ?_⟩
    rintro (h3 | h3)
    · exact absurd hc.1 h3
    · exact absurd h3 hc.2
  · simp only [Bool.and_eq_true, decide_eq_true_eq, Bool.not_eq_true', List.contains_eq_mem,
      decide_eq_false_iff_not] at hc
    rw [decide_eq_true_eq] at h
    exact ⟨fun h3 h4 => absurd ⟨h3, h4⟩ hc, fun _ => h⟩

/-- C58 is false of the code: e.g. aluminium and gold have a tabulated composition and the mass 0. -/
theorem C58_refuted :
    ¬ ∃ syms els, naturalElements shippedNist.render shippedDensities.render = .ok (syms, els) ∧
      ∀ Z ∈ List.range' 1 118, Tabulated Z → ∃ e, dictGet (symbolOf Z) els = .ok e ∧ 0 < e.amu := by
  rintro ⟨syms, els, h1, h2⟩
  obtain ⟨syms', els', h3, h4⟩ := C58_partial
  rw [h1] at h3
  obtain ⟨rfl, rfl⟩ := Prod.mk.inj (Except.ok.inj h3)
  obtain ⟨e, h5, h6⟩ := h2 79 (by decide) (by decide +kernel)
  obtain ⟨e', h7, -, -, h8⟩ := h4 79 (by decide)
  rw [h5] at h7
  obtain rfl := Except.ok.inj h7
  rw [h8 (.inr (by decide))] at h6
  exact lt_irrefl _ h6

example : symbolOf 79 = "Au".toList ∧ Tabulated 79 ∧ Tabulated 82 ∧ 82 ∉ singleIsotope ∧
    ¬ Tabulated 43 := by decide +kernel

/-! ## C60 for the shipped file -/

theorem shipped_density_find : ∀ l ∈ shippedDensities.all,
    if l.X ∈ ["B".toList, "S".toList, "I".toList] then True else
      shippedDensities.all.find? (fun k => contains l.X k.X) = some l := by decide +kernel

/-- C60 for the shipped file: every density is found, except those of B, S and I, for which the
densities of Be, Si and In are returned. -/
theorem C60_shipped_partial :
    (∀ l ∈ shippedDensities.all, l.X ∉ ["B".toList, "S".toList, "I".toList] →
      readDensity id shippedDensities.render l.X = .ok (some l.rho.value)) ∧
    readDensity id shippedDensities.render "B".toList = .ok (some (1848 / 1000)) ∧
    readDensity id shippedDensities.render "S".toList = .ok (some (233 / 100)) ∧
    readDensity id shippedDensities.render "I".toList = .ok (some (731 / 100)) := by
  refine ⟨fun l hl hn => ?_, ?_, ?_, ?_⟩
  · have h := shipped_density_find l hl
    rw [if_neg hn] at h
    rw [readDensity_eq (shippedDensities_valid.2 l hl).1 shippedDensities_valid, densityAsRead, h]
    rfl
  · rw [readDensity_eq ⟨.inl (by decide), by decide⟩ shippedDensities_valid]
    decide +kernel
  · rw [readDensity_eq ⟨.inl (by decide), by decide⟩ shippedDensities_valid]
    decide +kernel
  · rw [readDensity_eq ⟨.inl (by decide), by decide⟩ shippedDensities_valid]
    decide +kernel

/-- the densities written in the file for B, S and I are different -/
example : (∃ l ∈ shippedDensities.all, l.X = "B".toList ∧ l.rho.value = 237 / 100) ∧
    (∃ l ∈ shippedDensities.all, l.X = "S".toList ∧ l.rho.value = 2) ∧
    (∃ l ∈ shippedDensities.all, l.X = "I".toList ∧ l.rho.value = 493 / 100) := by decide +kernel

end Ries
