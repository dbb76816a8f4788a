import Verif.Lemmas.XrmacModule
import Verif.Lemmas.ShippedXrmac
import Verif.Props.NaturalElements

/-!
# C54, C73, C74: the dictionaries `xrmac_cm2_per_g` and `xrmac_fm2_per_atom`
-/

namespace Ries

open Text

set_option maxRecDepth 100000

/-! ## The import with the shipped files -/

/-- the element objects of the shipped files -/
def shippedElement : ℕ → ElementObj := expectedElement shippedNist shippedDensities symbolOf

theorem shipped_loopInput : ∃ syms els,
    naturalElements shippedNist.render shippedDensities.render = .ok (syms, els) ∧
      LoopInput syms els xrmacText symbolOf shippedElement := by
  obtain ⟨syms, h1, h2⟩ := naturalElements_ok shipped_importable
  have sub : ∀ Z ∈ List.range' 1 92, Z ∈ List.range' 1 118 := by
    intro Z hZ
    rw [List.mem_range'_1] at hZ ⊢
    omega
  refine ⟨syms, _, h1, fun Z hZ xc => ?_, fun Z hZ => h2 Z (sub Z hZ), fun Z hZ => ?_, ?_⟩
  · obtain ⟨rows, h, -⟩ := read_shipped hZ xc
    exact ⟨rows, h⟩
  · exact dictGet_eq (by rw [List.map_map]; exact shipped_distinct)
      (List.mem_map.2 ⟨Z, sub Z hZ, rfl⟩)
  · have : List.Sublist (List.range' 1 92) (List.range' 1 118) := by
      rw [show (118 : ℕ) = 92 + 26 from rfl, ← List.range'_append_1]
      exact List.sublist_append_left _ _
    exact shipped_distinct.sublist (this.map _)

/-! ## C54 -/

/-- C54, proved part: for all data files that can be imported, both dictionaries have exactly the
symbols of the elements 1 to 92 as keys, in this order; the *data* of every entry of
`xrmac_fm2_per_atom` are converted with the mass of its own element; the stored conversion of
uranium is right.
Missing for the full statement: the stored conversions of the other elements, for which it is false
(`C54_refuted`): they use the mass of the last element of the loop. -/
theorem C54_partial {syms : List (Option ℤ × Option Str)} {els : List (Str × ElementObj)}
    {file : ℕ → Str} {sym : ℕ → Str} {el : ℕ → ElementObj} (mu : ℝ)
    (h : LoopInput syms els file sym el) :
    ∃ st, moduleLoop syms els file mu = .ok st ∧
      st.perGram.map Prod.fst = (List.range' 1 92).map sym ∧
      st.perAtom.map Prod.fst = (List.range' 1 92).map sym ∧
      ∀ Z ∈ List.range' 1 92, ∃ a, dictGet (sym Z) st.perAtom = .ok a ∧
        readXrmac id (fun y => y * ((1e13 : ℝ) ^ 2 * (el Z).amu * mu * 1e3)) (file Z) = .ok a.data ∧
        ∀ y, a.conversion st.Z y = .ok (y * ((1e13 : ℝ) ^ 2 * (el 92).amu * mu * 1e3)) := by
  obtain ⟨st, h1, h2, h3, h4, h5⟩ := moduleLoop_ok (mu := mu) h
  refine ⟨st, h1, h3, h4, fun Z hZ => ?_⟩
  obtain ⟨g, a, -, h7, -, h9, -, h11⟩ := h5 Z hZ
  refine ⟨a, h7, h9, fun y => ?_⟩
  rw [h11, h2]
  exact h.conversion (by decide) y

example : ∃ syms els, LoopInput syms els xrmacText symbolOf shippedElement :=
  let ⟨syms, els, _, h⟩ := shipped_loopInput
  ⟨syms, els, h⟩

theorem symbol82 : symbolOf 82 = "Pb".toList := by decide +kernel
theorem symbol13 : symbolOf 13 = "Al".toList := by decide +kernel

theorem factor_inj {mu : ℝ} (hmu : 0 < mu) {p q : ℚ}
    (h : 1 * ((1e13 : ℝ) ^ 2 * p * mu * 1e3) = 1 * ((1e13 : ℝ) ^ 2 * q * mu * 1e3)) : p = q := by
  have h0 : (1e13 : ℝ) ^ 2 * 1e3 * mu ≠ 0 := by positivity
  have : (p : ℝ) = q := by
    apply mul_left_cancel₀ h0
    linear_combination h
  exact Rat.cast_injective this

theorem shipped_amu : (shippedElement 82).amu ≠ (shippedElement 92).amu := by decide +kernel

/-- C54 is false of the code, with the shipped files: the stored conversions are closures over the
loop variable, so after the import all of them, e.g. that of lead, use the mass of uranium. -/
theorem C54_refuted {mu : ℝ} (hmu : 0 < mu) :
    ∃ st a, importXrmac shippedNist.render shippedDensities.render xrmacText mu = .ok st ∧
      dictGet "Pb".toList st.perAtom = .ok a ∧
      a.conversion st.Z 1 ≠ .ok (1 * ((1e13 : ℝ) ^ 2 * (shippedElement 82).amu * mu * 1e3)) := by
  obtain ⟨syms, els, h1, h2⟩ := shipped_loopInput
  obtain ⟨st, h3, -, -, h4⟩ := C54_partial mu h2
  obtain ⟨a, h5, -, h6⟩ := h4 82 (by decide)
  refine ⟨st, a, importXrmac_ok h1 h3, ?_, ?_⟩
  · rw [← symbol82]
    exact h5
  · rw [h6]
    intro he
    exact shipped_amu (factor_inj hmu (Except.ok.inj he)).symm

/-! ## C74 -/

/-- C74: with the shipped files the module can be imported, and for each of the 92 elements and
*every* nonnegative energy, the mass attenuation coefficient is a positive number; the table read for it has
energies in ascending order from 1 keV to 20 MeV and positive values (so that C48 – C50 apply). -/
theorem C74_shipped (mu : ℝ) :
    ∃ st, importXrmac shippedNist.render shippedDensities.render xrmacText mu = .ok st ∧
      st.perGram.map Prod.fst = (List.range' 1 92).map symbolOf ∧
      ∀ Z ∈ List.range' 1 92, ∃ g, dictGet (symbolOf Z) st.perGram = .ok g ∧
        PosTable (toTable g.data) ∧ SortedTable (toTable g.data) ∧
        (toTable g.data).head?.map Prod.fst = some (1 / 1000) ∧
        (toTable g.data).getLast?.map Prod.fst = some 20 ∧
        ∀ E, 0 ≤ E → ∃ v, g.call E = .ok (.fin v) ∧ 0 < v := by
  obtain ⟨syms, els, h1, h2⟩ := shipped_loopInput
  obtain ⟨st, h3, -, h4, -, h5⟩ := moduleLoop_ok (mu := mu) h2
  refine ⟨st, importXrmac_ok h1 h3, h4, fun Z hZ => ?_⟩
  obtain ⟨g, a, h6, -, h7, -⟩ := h5 Z hZ
  obtain ⟨rows, h8, h9⟩ := read_shipped hZ id
  obtain rfl := Except.ok.inj (h7.symm.trans h8)
  have h10 : toTable g.data = tableOf Z := by simpa using h9
  have hg := shipped_good hZ
  refine ⟨g, h6, h10 ▸ tableOf_pos hZ, h10 ▸ tableOf_sorted hZ, ?_, ?_, fun E hE => ?_⟩
  · have := congrArg (Option.map fun q : ℚ => (q : ℝ)) hg.first
    rw [h10]
    simpa [tableOf, Function.comp_def, Option.map_map] using this
  · have := congrArg (Option.map fun q : ℚ => (q : ℝ)) hg.last
    rw [h10]
    simpa [tableOf, Function.comp_def, Option.map_map, List.getLast?_map] using this
  · obtain ⟨v, hv, hp⟩ := value_pos (tableOf_pos hZ) hE
    exact ⟨v, by rw [StoredXrmac.call, h10]; exact hv, hp⟩

/-! ## C73 -/

/-- C73, proved part: for every element of the shipped files and every nonnegative energy, the cross section per
atom is the mass attenuation coefficient times the mass of the atom.  It is positive for the elements
with a tabulated isotopic composition, except 22 elements with a single natural isotope.
Missing for the full statement: for these 22 elements, and those without tabulated composition, the
cross section is zero at every energy. -/
theorem C73_partial {mu : ℝ} (hmu : 0 < mu) :
    ∃ st, importXrmac shippedNist.render shippedDensities.render xrmacText mu = .ok st ∧
      ∀ Z ∈ List.range' 1 92, ∃ g a, dictGet (symbolOf Z) st.perGram = .ok g ∧
        dictGet (symbolOf Z) st.perAtom = .ok a ∧ ∀ E, 0 ≤ E → ∃ v, 0 < v ∧
          g.call E = .ok (.fin v) ∧
          a.call E = .ok (.fin (1e29 * (shippedElement Z).amu * mu * v)) ∧
          (Tabulated Z → Z ∉ singleIsotope → ∃ w, a.call E = .ok (.fin w) ∧ 0 < w) ∧
          (¬ Tabulated Z ∨ Z ∈ singleIsotope → a.call E = .ok (.fin 0)) := by
  obtain ⟨syms, els, h1, h2⟩ := shipped_loopInput
  obtain ⟨st, h3, -, -, -, h5⟩ := moduleLoop_ok (mu := mu) h2
  refine ⟨st, importXrmac_ok h1 h3, fun Z hZ => ?_⟩
  obtain ⟨g, a, h6, h7, h8, h9, -⟩ := h5 Z hZ
  refine ⟨g, a, h6, h7, fun E hE => ?_⟩
  obtain ⟨rows, h10, h11⟩ := read_shipped hZ id
  obtain rfl := Except.ok.inj (h8.symm.trans h10)
  obtain ⟨rows, h12, h13⟩ := read_shipped hZ fun y => y * fm2PerAtom mu (shippedElement Z).amu
  obtain rfl := Except.ok.inj (h9.symm.trans h12)
  obtain ⟨syms', els', e1, e2⟩ := C58_partial
  rw [h1] at e1
  obtain ⟨rfl, rfl⟩ := Prod.mk.inj (Except.ok.inj e1)
  have sub : Z ∈ List.range' 1 118 := by
    rw [List.mem_range'_1] at hZ ⊢
    omega
  obtain ⟨e, e3, -, e5, e6⟩ := e2 Z sub
  rw [h2.element Z hZ] at e3
  obtain rfl := Except.ok.inj e3
  have hm : 0 ≤ (shippedElement Z).amu := by
    by_cases hc : Tabulated Z ∧ Z ∉ singleIsotope
    · exact (e5 hc.1 hc.2).1.le
    · refine (e6 ?_).ge
      by_cases ht : Tabulated Z
      · exact .inr (by_contra fun h => hc ⟨ht, h⟩)
      · exact .inl ht
  generalize shippedElement Z = e at h13 e5 e6 hm ⊢
  obtain ⟨v, hp, hv, hs⟩ := both_units (tableOf_pos hZ) hmu hm hE
  have hg : g.call E = .ok (.fin v) := by
    rw [StoredXrmac.call, h11]
    simpa using hv
  have ha : a.call E = .ok (.fin (1e29 * e.amu * mu * v)) := by
    rw [StoredXrmac.call, h13, hs]
  refine ⟨v, hp, hg, ha, fun t1 t2 => ⟨_, ha, ?_⟩, fun t => ?_⟩
  · have : (0 : ℝ) < e.amu := Rat.cast_pos.2 (e5 t1 t2).1
    positivity
  · rw [ha, e6 t]
    simp

/-- C73 is false of the code: e.g. the cross section of an aluminium atom is zero at every energy. -/
theorem C73_refuted {mu : ℝ} (hmu : 0 < mu) :
    ∃ st a, importXrmac shippedNist.render shippedDensities.render xrmacText mu = .ok st ∧
      dictGet "Al".toList st.perAtom = .ok a ∧ ∀ E, 0 ≤ E → a.call E = .ok (.fin 0) := by
  obtain ⟨st, h1, h2⟩ := C73_partial hmu
  obtain ⟨g, a, -, h3, h4⟩ := h2 13 (by decide)
  refine ⟨st, a, h1, ?_, fun E hE => ?_⟩
  · rw [← symbol13]
    exact h3
  · obtain ⟨v, -, -, -, -, h⟩ := h4 E hE
    exact h (.inr (by decide))

/-- C51 for the shipped files: for each of the 92 elements there is one factor between the two units at all nonnegative energies. -/
theorem C51_shipped {mu : ℝ} (hmu : 0 < mu) :
    ∃ st, importXrmac shippedNist.render shippedDensities.render xrmacText mu = .ok st ∧
      ∀ Z ∈ List.range' 1 92, ∃ g a f, dictGet (symbolOf Z) st.perGram = .ok g ∧ dictGet (symbolOf Z) st.perAtom = .ok a ∧
        ∀ E, 0 ≤ E → ∃ v, g.call E = .ok (.fin v) ∧ a.call E = .ok (.fin (f * v)) := by
  obtain ⟨st, h1, h2⟩ := C73_partial hmu
  refine ⟨st, h1, fun Z hZ => ?_⟩
  obtain ⟨g, a, h3, h4, h5⟩ := h2 Z hZ
  refine ⟨g, a, 1e29 * ((shippedElement Z).amu : ℝ) * mu, h3, h4, fun E hE => ?_⟩
  obtain ⟨v, -, h6, h7, -⟩ := h5 E hE
  exact ⟨v, h6, h7⟩

/-- The hypothesis of C51, C54 and C73 on the atomic mass constant (in kg) is met. -/
example : (0 : ℝ) < 1.66053906892e-27 := by norm_num

end Ries
