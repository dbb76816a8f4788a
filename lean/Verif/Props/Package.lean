import Verif.Model.Package

/-! # C122: an installation contains what the library needs -/

namespace Ries

open Package

namespace Package

theorem isPackage_mono {t t' : List Path} (h : ∀ p ∈ t, p ∈ t') {d : Path} (hd : isPackage t d = true) : isPackage t' d = true := by
  simp only [isPackage, isFile, Bool.and_eq_true, List.all_eq_true, List.contains_iff_mem] at hd ⊢
  exact ⟨hd.1, fun q hq => ⟨h _ (hd.2 q hq).1, (hd.2 q hq).2⟩⟩

theorem installed_mono {t t' m : List Path} (h : ∀ p ∈ t, p ∈ t') {p : Path} (hp : p ∈ installed t m) : p ∈ installed t' m := by
  simp only [installed, List.mem_filter, Bool.or_eq_true, isModule, isData, isFile, Bool.and_eq_true, List.contains_iff_mem,
    List.any_eq_true] at hp ⊢
  obtain ⟨h1, h2⟩ := hp
  refine ⟨h p h1, ?_⟩
  rcases h2 with ⟨⟨_, b⟩, c⟩ | ⟨⟨_, b⟩, d, c1, c2⟩
  · exact .inl ⟨⟨h p h1, isPackage_mono h b⟩, c⟩
  · exact .inr ⟨⟨h p h1, b⟩, d, c1, isPackage_mono h c2⟩

end Package

/-- C122 is false: besides the library, a package with the name `tests` is installed. -/
theorem C122_refuted : toPath ["tests", "test_element.py"] ∈ installed repository manifestIn := by
  decide +kernel

/-- C122, the part that holds: an installation from the repository (possibly with further files in the source directory) contains
the two files of element data, the 92 attenuation tables, and all modules that a module of the library consists of or imports; and
the repository itself installs nothing outside of `ries` and `tests`. Missing: see `C122_refuted`. -/
theorem C122_partial (tree : List Path) (h : ∀ p ∈ repository, p ∈ tree) :
    (∀ p ∈ openedByElement ++ openedByXrmac, p ∈ installed tree manifestIn) ∧
    (∀ m ∈ imports, ∀ i ∈ m.1 :: m.2, ∀ p ∈ filesOfModule i, p ∈ installed tree manifestIn) ∧
    (∀ p ∈ installed repository manifestIn, p.head? = some "ries".toList ∨ p.head? = some "tests".toList) := by
  have h1 : ∀ p ∈ openedByElement ++ openedByXrmac, p ∈ installed repository manifestIn := by decide +kernel
  have h2 : ∀ m ∈ imports, ∀ i ∈ m.1 :: m.2, ∀ p ∈ filesOfModule i, p ∈ installed repository manifestIn := by decide +kernel
  have h3 : ∀ p ∈ installed repository manifestIn, p.head? = some "ries".toList ∨ p.head? = some "tests".toList := by decide +kernel
  exact ⟨fun p hp => installed_mono h (h1 p hp), fun m hm i hi p hp => installed_mono h (h2 m hm i hi p hp), h3⟩

/-- A source directory with an additional file; the table of lead is among the files that are opened. -/
example : (∀ p ∈ repository, p ∈ toPath ["build", "notes.txt"] :: repository) ∧
    toPath ["ries", "nonresonant", "nist_xrmac", "82.txt"] ∈ openedByXrmac ∧
    toPath ["ries", "constituents", "geant4_densities", "element_densities.txt"] ∈ openedByElement := by
  refine ⟨fun p hp => List.mem_cons_of_mem _ hp, ?_, ?_⟩ <;> decide +kernel

end Ries
