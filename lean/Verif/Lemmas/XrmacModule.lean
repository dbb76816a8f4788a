import Verif.Model.XrmacModule
import Verif.Lemmas.ElementsReader

/-! # The module loop of `ries/nonresonant/xrmac.py` -/

namespace Ries

open Text

/-- What the loop needs: a readable file, a symbol and an element object for every atomic number,
and different symbols for different atomic numbers. -/
structure LoopInput (syms : List (Option ℤ × Option Str)) (els : List (Str × ElementObj))
    (file : ℕ → Str) (sym : ℕ → Str) (el : ℕ → ElementObj) : Prop where
  readable : ∀ Z ∈ List.range' 1 92, ∀ xc : ℝ → ℝ, ∃ rows, readXrmac id xc (file Z) = .ok rows
  symbol : ∀ Z ∈ List.range' 1 92, dictGet (some (Z : ℤ)) syms = .ok (some (sym Z))
  element : ∀ Z ∈ List.range' 1 92, dictGet (sym Z) els = .ok (el Z)
  distinct : ((List.range' 1 92).map sym).Nodup

section
variable {syms : List (Option ℤ × Option Str)} {els : List (Str × ElementObj)} {file : ℕ → Str}
  {sym : ℕ → Str} {el : ℕ → ElementObj} {mu : ℝ}

theorem LoopInput.mass (h : LoopInput syms els file sym el) {Z : ℕ} (hZ : Z ∈ List.range' 1 92) :
    massOf syms els Z = .ok ((el Z).amu : ℝ) := by
  simp [massOf, h.symbol Z hZ, h.element Z hZ, bind, Except.bind]

theorem LoopInput.conversion (h : LoopInput syms els file sym el) {Z : ℕ}
    (hZ : Z ∈ List.range' 1 92) (y : ℝ) :
    atomConversion syms els mu Z y = .ok (y * fm2PerAtom mu (el Z).amu) := by
  simp [atomConversion, h.mass hZ, bind, Except.bind]

theorem foldlM_module (h : LoopInput syms els file sym el) {zs : List ℕ}
    (hzs : ∀ Z ∈ zs, Z ∈ List.range' 1 92) (hd : (zs.map sym).Nodup) (st : ModState)
    (h1 : ∀ Z ∈ zs, sym Z ∉ st.perGram.map Prod.fst)
    (h2 : ∀ Z ∈ zs, sym Z ∉ st.perAtom.map Prod.fst) :
    ∃ g a : ℕ → List Row3,
      (∀ Z ∈ zs, readXrmac id id (file Z) = .ok (g Z) ∧
        readXrmac id (fun y => y * fm2PerAtom mu (el Z).amu) (file Z) = .ok (a Z)) ∧
      zs.foldlM (moduleStep syms els file mu) st = .ok ⟨(zs.getLast?).getD st.Z,
        st.perGram ++ zs.map (fun Z => (sym Z, ⟨g Z, fun _ y => .ok y⟩)),
        st.perAtom ++ zs.map (fun Z => (sym Z, ⟨a Z, atomConversion syms els mu⟩))⟩ := by
  have hrows : ∀ Z, ∃ r1 r2, Z ∈ zs → readXrmac id id (file Z) = .ok r1 ∧
      readXrmac id (fun y => y * fm2PerAtom mu (el Z).amu) (file Z) = .ok r2 := by
    intro Z
    by_cases hZ : Z ∈ zs
    · obtain ⟨r1, e1⟩ := h.readable Z (hzs Z hZ) id
      obtain ⟨r2, e2⟩ := h.readable Z (hzs Z hZ) fun y => y * fm2PerAtom mu (el Z).amu
      exact ⟨r1, r2, fun _ => ⟨e1, e2⟩⟩
    · exact ⟨[], [], fun h => absurd h hZ⟩
  choose g a hga using hrows
  refine ⟨g, a, hga, ?_⟩
  induction zs generalizing st with
  | nil => simp [pure, Except.pure]
  | cons z zs ih =>
    have hz := hzs z (by simp)
    rw [List.map_cons, List.nodup_cons] at hd
    have step : moduleStep syms els file mu st z = .ok ⟨z,
        st.perGram ++ [(sym z, ⟨g z, fun _ y => .ok y⟩)],
        st.perAtom ++ [(sym z, ⟨a z, atomConversion syms els mu⟩)]⟩ := by
      obtain ⟨e1, e2⟩ := hga z (by simp)
      simp only [moduleStep, h.symbol z hz, h.mass hz, e1, e2, bind, Except.bind]
      rw [dictSet_new (h1 z (by simp)), dictSet_new (h2 z (by simp))]
    rw [List.foldlM_cons, step]
    simp only [bind, Except.bind]
    rw [ih (fun Z hZ => hzs Z (by simp [hZ])) hd.2]
    · cases zs with
      | nil => simp
      | cons w ws => simp [List.getLast?_cons]
    · intro Z hZ
      simp only [List.map_append, List.map_cons, List.map_nil, List.mem_append, List.mem_singleton,
        not_or]
      exact ⟨h1 Z (by simp [hZ]), fun he => hd.1 (he ▸ List.mem_map.2 ⟨Z, hZ, rfl⟩)⟩
    · intro Z hZ
      simp only [List.map_append, List.map_cons, List.map_nil, List.mem_append, List.mem_singleton,
        not_or]
      exact ⟨h2 Z (by simp [hZ]), fun he => hd.1 (he ▸ List.mem_map.2 ⟨Z, hZ, rfl⟩)⟩
    · exact fun Z hZ => hga Z (by simp [hZ])

/-- The result of the loop. -/
theorem moduleLoop_ok (h : LoopInput syms els file sym el) :
    ∃ st, moduleLoop syms els file mu = .ok st ∧ st.Z = 92 ∧
      st.perGram.map Prod.fst = (List.range' 1 92).map sym ∧
      st.perAtom.map Prod.fst = (List.range' 1 92).map sym ∧
      ∀ Z ∈ List.range' 1 92, ∃ g a, dictGet (sym Z) st.perGram = .ok g ∧
        dictGet (sym Z) st.perAtom = .ok a ∧ readXrmac id id (file Z) = .ok g.data ∧
        readXrmac id (fun y => y * fm2PerAtom mu (el Z).amu) (file Z) = .ok a.data ∧
        (∀ z y, g.conversion z y = .ok y) ∧ a.conversion = atomConversion syms els mu := by
  obtain ⟨g, a, hga, hl⟩ := foldlM_module (mu := mu) h (zs := List.range' 1 92) (fun _ h => h)
    h.distinct ⟨0, [], []⟩ (by simp) (by simp)
  refine ⟨_, hl, rfl, by simp [Function.comp_def], by simp [Function.comp_def], fun Z hZ => ?_⟩
  refine ⟨⟨g Z, fun _ y => .ok y⟩, ⟨a Z, atomConversion syms els mu⟩, dictGet_eq ?_ ?_,
    dictGet_eq ?_ ?_, (hga Z hZ).1, (hga Z hZ).2, fun _ _ => rfl, rfl⟩
  · simpa [Function.comp_def] using h.distinct
  · exact List.mem_append_right _ (List.mem_map.2 ⟨Z, hZ, rfl⟩)
  · simpa [Function.comp_def] using h.distinct
  · exact List.mem_append_right _ (List.mem_map.2 ⟨Z, hZ, rfl⟩)

theorem importXrmac_ok {nist dens : Str} {st : ModState}
    (h1 : naturalElements nist dens = .ok (syms, els))
    (h2 : moduleLoop syms els file mu = .ok st) : importXrmac nist dens file mu = .ok st := by
  simp [importXrmac, h1, h2, bind, Except.bind]

end

end Ries
