import Verif.Lemmas.ElementMass

/-! # Lemmas on the module variables of `ries.constituents.element` -/

namespace Ries

open Text

/-- the mass of an isotope, 0 if it has none -/
def Para.mass (p : Para) : ℚ := (p.amu.asRead none).getD 0

/-- the abundance as read -/
def Para.ab (p : Para) : ℚ := (p.comp.asRead (some 0)).getD 0

theorem amu_paras {ps : List Para} (hn : (ps.map Para.name).Nodup)
    (hm : ∀ p ∈ ps, (p.amu.asRead none).isSome) :
    amuFromComposition (ps.map Para.abEntry) (ps.map Para.isoEntry) =
      .ok ((ps.map fun p => p.mass * p.ab).sum) := by
  have h : (ps.map Para.isoEntry).mapM (amuTerm (ps.map Para.abEntry)) =
      .ok (ps.map fun p => p.mass * p.ab) := by
    rw [List.mapM_map]
    refine mapM_ok fun p hp => ?_
    have h1 := dictGet_eq (d := ps.map Para.abEntry) (by rw [List.map_map]; exact hn) (k := p.name)
      (v := p.ab) (List.mem_map.2 ⟨p, hp, rfl⟩)
    obtain ⟨v, hv⟩ := Option.isSome_iff_exists.1 (hm p hp)
    simp [Function.comp, amuTerm, Para.isoEntry, h1, hv, Para.mass, bind, Except.bind]
  simp [amuFromComposition, h, bind, Except.bind]

/-- the density as read: of the first line whose symbol contains the requested one -/
def densityAsRead (f : DensFile) (X : Str) : Option ℚ :=
  (f.all.find? fun l => contains X l.X).map fun l => l.rho.value

theorem readDensity_eq {X : Str} (hX : IsSymbol X) {f : DensFile} (hf : f.Valid) :
    readDensity id f.render X = .ok (densityAsRead f X) := by
  unfold densityAsRead
  rcases h : f.all.find? fun l => contains X l.X with _ | l
  · rw [h]
    rw [List.find?_eq_none] at h
    rw [readDensity_none id hX hf fun k hk hc => h k hk ((contains_iff _ _).2 hc)]
    rfl
  · rw [h]
    obtain ⟨h1, pre, post, h2, h3⟩ := List.find?_eq_some_iff_append.1 h
    rw [readDensity_first id hX hf h2 ((contains_iff _ _).1 h1) fun k hk hc => by
      have := h3 k hk
      rw [(contains_iff _ _).2 hc] at this
      simp at this]
    rfl

/-- the element that is created for an atomic number -/
def expectedElement (f : NistFile) (g : DensFile) (sym : ℕ → Str) (Z : ℕ) : ElementObj :=
  ⟨Z, sym Z, (f.isotopesOf Z).map Para.isoEntry, (f.isotopesOf Z).map Para.abEntry,
    densityAsRead g (sym Z), ((f.isotopesOf Z).map fun p => p.mass * p.ab).sum⟩

theorem firstSymbol_find {ps : List Para} {Z : ℕ} {p : Para}
    (h : ps.find? (fun p => p.Z = Z) = some p) : FirstSymbol ps (some (Z : ℤ)) (some p.X) := by
  obtain ⟨h1, pre, post, h2, h3⟩ := List.find?_eq_some_iff_append.1 h
  have h1 : p.Z = Z := by simpa using h1
  refine ⟨pre, p, post, h2, fun q hq => ?_, by rw [h1], rfl⟩
  have := h3 q hq
  rw [h1]
  simpa using this

theorem elementStep_ok {f : NistFile} (hf : f.Valid) (hs : f.Sorted) {g : DensFile} (hg : g.Valid)
    {sym : ℕ → Str} {Z : ℕ} (hn : ((f.isotopesOf Z).map Para.name).Nodup)
    (hm : ∀ p ∈ f.isotopesOf Z, (p.amu.asRead none).isSome)
    {syms : List (Option ℤ × Option Str)} (hsym : dictGet (some (Z : ℤ)) syms = .ok (some (sym Z)))
    (hX : IsSymbol (sym Z)) {d : List (Str × ElementObj)} (hd : sym Z ∉ d.map Prod.fst) :
    elementStep f.render g.render syms d Z = .ok (d ++ [(sym Z, expectedElement f g sym Z)]) := by
  unfold elementStep
  rw [readNist_file hf hs hn]
  simp only [bind, Except.bind, hsym, readDensity_eq hX hg, amu_paras hn hm, dictSet_new hd]
  rfl

theorem elementLoop_ok {f : NistFile} (hf : f.Valid) (hs : f.Sorted) {g : DensFile} (hg : g.Valid)
    {sym : ℕ → Str} {syms : List (Option ℤ × Option Str)} {zs : List ℕ}
    (h : ∀ Z ∈ zs, ((f.isotopesOf Z).map Para.name).Nodup ∧
      (∀ p ∈ f.isotopesOf Z, (p.amu.asRead none).isSome) ∧
      dictGet (some (Z : ℤ)) syms = .ok (some (sym Z)) ∧ IsSymbol (sym Z))
    {d : List (Str × ElementObj)} (hd : (d.map Prod.fst ++ zs.map sym).Nodup) :
    (zs.map fun n : ℕ => (n : ℤ)).foldlM (elementStep f.render g.render syms) d =
      .ok (d ++ zs.map fun Z => (sym Z, expectedElement f g sym Z)) := by
  induction zs generalizing d with
  | nil => simp [pure, Except.pure]
  | cons Z zs ih =>
    obtain ⟨h1, h2, h3, h4⟩ := h Z (by simp)
    have hnew : sym Z ∉ d.map Prod.fst := by
      intro hc
      exact (List.nodup_append.1 hd).2.2 _ hc _ (by simp) rfl
    rw [List.map_cons, List.foldlM_cons, elementStep_ok hf hs hg h1 h2 h3 h4 hnew]
    simp only [bind, Except.bind]
    rw [ih (fun Z hZ => h Z (by simp [hZ])) (by simpa using hd)]
    simp

/-- what is needed of the files for the module to be importable -/
structure Importable (f : NistFile) (g : DensFile) (sym : ℕ → Str) : Prop where
  valid : f.Valid
  sorted : f.Sorted
  densities : g.Valid
  names : ∀ Z ∈ List.range' 1 118, ((f.isotopesOf Z).map Para.name).Nodup
  masses : ∀ Z ∈ List.range' 1 118, ∀ p ∈ f.isotopesOf Z, (p.amu.asRead none).isSome
  symbols : ∀ Z ∈ List.range' 1 118, ∃ p, f.paras.find? (fun p => p.Z = Z) = some p ∧ p.X = sym Z
  symbol : ∀ Z ∈ List.range' 1 118, IsSymbol (sym Z)
  distinct : ((List.range' 1 118).map sym).Nodup

theorem naturalElements_ok {f : NistFile} {g : DensFile} {sym : ℕ → Str} (h : Importable f g sym) :
    ∃ syms, naturalElements f.render g.render =
      .ok (syms, (List.range' 1 118).map fun Z => (sym Z, expectedElement f g sym Z)) ∧
      ∀ Z ∈ List.range' 1 118, dictGet (some (Z : ℤ)) syms = .ok (some (sym Z)) := by
  obtain ⟨d, h1, h2, h3⟩ := readSymbols_file h.valid
  have hsym : ∀ Z ∈ List.range' 1 118, dictGet (some (Z : ℤ)) d = .ok (some (sym Z)) := by
    intro Z hZ
    obtain ⟨p, hp, hX⟩ := h.symbols Z hZ
    rw [← hX]
    exact dictGet_eq h2 ((h3 _ _).2 (firstSymbol_find hp))
  refine ⟨d, ?_, hsym⟩
  unfold naturalElements
  rw [h1]
  simp only [bind, Except.bind]
  rw [elementLoop_ok h.valid h.sorted h.densities (sym := sym) (d := [])
    (fun Z hZ => ⟨h.names Z hZ, h.masses Z hZ, hsym Z hZ, h.symbol Z hZ⟩) (by simpa using h.distinct)]
  simp

end Ries
