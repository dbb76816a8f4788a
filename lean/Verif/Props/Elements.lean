import Verif.Lemmas.ElementMass

/-!
# C55 – C57, C59, C60: elements and their data files
-/

namespace Ries

open Text

/-! ## C55 -/

section
variable {α κ : Type} [DecidableEq κ]

/-- C55: the mass of an element with isotopes `ks` of masses `m` and abundances `a` is the sum of
mass times abundance, whatever further entries the dictionary of abundances has. -/
theorem C55_weighted_sum [Semiring α] {abundances : List (κ × α)}
    (hd : (abundances.map Prod.fst).Nodup) {m a : κ → α} {ks : List κ}
    (ha : ∀ k ∈ ks, (k, a k) ∈ abundances) :
    amuFromComposition abundances (ks.map fun k => (k, some (m k))) =
      .ok ((ks.map fun k => m k * a k).sum) :=
  amu_ok hd ha

/-- boron, with an abundance of an isotope that is not in the sample -/
example : amuFromComposition [("9B", 1 / 2), ("11B", 4 / 5), ("10B", 1 / 5)]
    [("10B", some 10), ("11B", some 11)] = .ok (54 / 5 : ℚ) := by
  have := C55_weighted_sum (α := ℚ) (abundances := [("9B", 1 / 2), ("11B", 4 / 5), ("10B", 1 / 5)])
    (by decide) (m := fun k => if k = "10B" then 10 else 11)
    (a := fun k => if k = "10B" then 1 / 5 else 4 / 5) (ks := ["10B", "11B"]) (by decide +kernel)
  simp only [List.map_cons, List.map_nil, if_true, List.sum_cons, List.sum_nil] at this
  rw [if_neg (by decide), if_neg (by decide)] at this
  rw [this]
  norm_num

/-- C55: the order of the two dictionaries does not matter. -/
theorem C55_order [Semiring α] {ab ab' : List (κ × α)} {iso iso' : List (κ × Option α)}
    (hd : (ab.map Prod.fst).Nodup) (h1 : ab.Perm ab') (h2 : iso.Perm iso') {v : α}
    (h : amuFromComposition ab iso = .ok v) : amuFromComposition ab' iso' = .ok v :=
  amu_perm hd h1 h2 h

/-- C55: an isotope without abundance raises `KeyError`. -/
theorem C55_missing [Semiring α] {ab : List (κ × α)} {m : κ → α} {ks : List κ} {k : κ}
    (hk : k ∈ ks) (hm : k ∉ ab.map Prod.fst) :
    amuFromComposition ab (ks.map fun k => (k, some (m k))) = .error .keyError := by
  have h : (ks.map fun k => (k, some (m k))).mapM (amuTerm ab) = .error .keyError := by
    refine mapM_error (fun p hp => ?_) ⟨(k, some (m k)), List.mem_map.2 ⟨k, hk, rfl⟩, ?_⟩
    · obtain ⟨j, -, rfl⟩ := List.mem_map.1 hp
      by_cases hj : j ∈ ab.map Prod.fst
      · obtain ⟨q, hq, rfl⟩ := List.mem_map.1 hj
        right
        rcases hg : dictGet q.1 ab with e | w
        · exfalso
          clear hk hm hp
          induction ab with
          | nil => simp at hq
          | cons r ab ih =>
            rw [dictGet] at hg
            split_ifs at hg with h1
            rcases List.mem_cons.1 hq with rfl | hq
            · exact h1 rfl
            · exact ih hq (List.mem_map.2 ⟨q, hq, rfl⟩) hg
        · exact ⟨m q.1 * w, by simp [amuTerm, hg, bind, Except.bind]⟩
      · left
        simp [amuTerm, dictGet_missing hj, bind, Except.bind]
    · simp [amuTerm, dictGet_missing hm, bind, Except.bind]
  simp [amuFromComposition, h, bind, Except.bind]

example : amuFromComposition [("10B", (1 : ℚ) / 5)] [("10B", some 10), ("11B", some 11)] =
    .error .keyError :=
  C55_missing (m := fun k => if k = "10B" then (10 : ℚ) else 11) (ks := ["10B", "11B"]) (k := "11B")
    (by decide) (by decide)

/-- C55: for nonnegative abundances with sum 1 the mass lies between the masses of the lightest and
of the heaviest isotope. -/
theorem C55_between [Field α] [LinearOrder α] [IsStrictOrderedRing α] {abundances : List (κ × α)}
    (hd : (abundances.map Prod.fst).Nodup) {m a : κ → α} {ks : List κ}
    (ha : ∀ k ∈ ks, (k, a k) ∈ abundances) (hpos : ∀ k ∈ ks, 0 ≤ a k) (hsum : (ks.map a).sum = 1)
    {lo hi : α} (hm : ∀ k ∈ ks, lo ≤ m k ∧ m k ≤ hi) :
    ∃ v, amuFromComposition abundances (ks.map fun k => (k, some (m k))) = .ok v ∧
      lo ≤ v ∧ v ≤ hi := by
  refine ⟨_, C55_weighted_sum hd ha, ?_⟩
  have := sum_bounds hpos hm
  rw [hsum, mul_one, mul_one] at this
  exact this

example : ∃ v : ℚ, amuFromComposition [("10B", 1 / 5), ("11B", 4 / 5)]
    [("10B", some 10), ("11B", some 11)] = .ok v ∧ 10 ≤ v ∧ v ≤ 11 :=
  C55_between (α := ℚ) (by decide) (m := fun k => if k = "10B" then 10 else 11)
    (a := fun k => if k = "10B" then 1 / 5 else 4 / 5) (ks := ["10B", "11B"])
    (by decide +kernel) (by decide +kernel) (by decide +kernel) (by decide +kernel)

end

/-! ## C56, C57 -/

/-- C56: the isotopes that are returned are exactly those listed under `Z`, in the order of the file,
for every sorted file in the documented format. -/
theorem C56_isotopes {f : NistFile} (hf : f.Valid) (hs : f.Sorted) {Z : ℕ}
    (hn : ((f.isotopesOf Z).map Para.name).Nodup) :
    ∃ ab iso, readNist f.render Z = .ok (ab, iso) ∧ ab.map Prod.fst = (f.isotopesOf Z).map Para.name ∧
      iso.map Prod.fst = (f.isotopesOf Z).map Para.name := by
  refine ⟨_, _, readNist_file hf hs hn, ?_, ?_⟩
  · rw [List.map_map]; rfl
  · rw [List.map_map]; rfl

/-- C56, proved part: if all masses and abundances of `Z` are given with an uncertainty (or are
missing), they are returned exactly as written, a missing abundance as 0.
Missing for the full statement: values without uncertainty, for which it is false (`C57_refuted`). -/
theorem C56_partial {f : NistFile} (hf : f.Valid) (hs : f.Sorted) {Z : ℕ}
    (hn : ((f.isotopesOf Z).map Para.name).Nodup)
    (hu : ∀ p ∈ f.isotopesOf Z, p.amu.HasUnc ∧ p.comp.HasUnc) :
    readNist f.render Z = .ok
      ((f.isotopesOf Z).map fun p => (p.name, p.comp.written.getD 0),
       (f.isotopesOf Z).map fun p => (p.name, p.amu.written)) := by
  rw [readNist_file hf hs hn]
  have h : ∀ F : PropValue, F.HasUnc → F.asRead none = F.written ∧
      (F.asRead (some 0)).getD 0 = F.written.getD 0 := by
    intro F hF
    cases F with
    | empty => exact ⟨rfl, rfl⟩
    | plain x => exact hF.elim
    | unc x u => exact ⟨rfl, rfl⟩
  congr 2
  · exact List.map_congr_left fun p hp => by
      rw [Para.abEntry, (h _ (hu p hp).2).2]
  · exact List.map_congr_left fun p hp => by
      rw [Para.isoEntry, (h _ (hu p hp).1).1]

/-- C57, proved part: an abundance `VALUE(UNCERTAINTY)` is read as `VALUE`, an empty one as 0; and an
abundance `VALUE` without uncertainty is *always* read as 0.
Missing for the full statement: the format without uncertainty (`C57_refuted`). -/
theorem C57_partial {f : NistFile} (hf : f.Valid) (hs : f.Sorted) {p : Para} (hp : p ∈ f.paras)
    (hn : ((f.isotopesOf p.Z).map Para.name).Nodup) :
    ∃ ab iso, readNist f.render p.Z = .ok (ab, iso) ∧
      (p.comp.HasUnc → dictGet p.name ab = .ok (p.comp.written.getD 0)) ∧
      (¬ p.comp.HasUnc → dictGet p.name ab = .ok 0) := by
  refine ⟨_, _, readNist_file hf hs hn, ?_⟩
  have hmem : p ∈ f.isotopesOf p.Z := by simp [NistFile.isotopesOf, hp]
  have hget := dictGet_eq (d := (f.isotopesOf p.Z).map Para.abEntry)
    (by rw [List.map_map]; exact hn) (k := p.name) (v := (p.comp.asRead (some 0)).getD 0)
    (List.mem_map.2 ⟨p, hmem, rfl⟩)
  rw [hget]
  cases hc : p.comp with
  | empty => simp [PropValue.asRead, PropValue.written, PropValue.HasUnc]
  | plain x => simp [PropValue.asRead, PropValue.HasUnc]
  | unc x u => simp [PropValue.asRead, PropValue.written, PropValue.HasUnc]

/-- beryllium as in the shipped file -/
def exBe : Para :=
  ⟨4, "Be".toList, 9, .unc ⟨[9], some [0, 1, 2, 1, 8, 3, 0, 6, 5], none⟩ "82".toList, .plain ⟨[1], none, none⟩,
    ["Notes =  ".toList, []]⟩

/-- boron-10 as in the shipped file -/
def exB10 : Para :=
  ⟨5, "B".toList, 10, .unc ⟨[1, 0], some [0, 1, 2, 9, 3, 6, 9, 5], none⟩ "41".toList,
    .unc ⟨[0], some [1, 9, 9], none⟩ "7".toList, ["Notes = m".toList, []]⟩

/-- boron-11 as in the shipped file -/
def exB11 : Para :=
  ⟨5, "B".toList, 11, .unc ⟨[1, 1], some [0, 0, 9, 3, 0, 5, 3, 6], none⟩ "45".toList,
    .unc ⟨[0], some [8, 0, 1], none⟩ "7".toList, ["Notes = m".toList, []]⟩

def exFile : NistFile := ⟨["# header".toList], [exBe, exB10, exB11], []⟩

theorem exFile_valid : exFile.Valid := by
  have hj : ∀ l ∈ ["Notes =  ".toList, "Notes = m".toList, [], "# header".toList], Junk l := by
    unfold Junk
    decide
  have hd : ∀ x ∈ [(⟨[9], some [0, 1, 2, 1, 8, 3, 0, 6, 5], none⟩ : Dec), ⟨[1], none, none⟩,
      ⟨[1, 0], some [0, 1, 2, 9, 3, 6, 9, 5], none⟩, ⟨[0], some [1, 9, 9], none⟩,
      ⟨[1, 1], some [0, 0, 9, 3, 0, 5, 3, 6], none⟩, ⟨[0], some [8, 0, 1], none⟩], x.Valid := by
    intro x hx
    simp only [List.mem_cons, List.not_mem_nil, or_false] at hx
    rcases hx with rfl | rfl | rfl | rfl | rfl | rfl <;> exact ⟨by simp, by simp⟩
  refine ⟨fun l hl => hj l (by simp [exFile] at hl; simp [hl]), fun p hp => ?_, hj [] (by simp)⟩
  simp only [exFile, List.mem_cons, List.not_mem_nil, or_false] at hp
  rcases hp with rfl | rfl | rfl
  · refine ⟨by decide, by decide, by decide, ⟨hd _ (by decide), by decide, by decide⟩,
      hd _ (by decide), fun l hl => hj l ?_⟩
    simp only [exBe, List.mem_cons, List.not_mem_nil, or_false] at hl
    rcases hl with rfl | rfl <;> simp
  · refine ⟨by decide, by decide, by decide, ⟨hd _ (by decide), by decide, by decide⟩,
      ⟨hd _ (by decide), by decide, by decide⟩, fun l hl => hj l ?_⟩
    simp only [exB10, List.mem_cons, List.not_mem_nil, or_false] at hl
    rcases hl with rfl | rfl <;> simp
  · refine ⟨by decide, by decide, by decide, ⟨hd _ (by decide), by decide, by decide⟩,
      ⟨hd _ (by decide), by decide, by decide⟩, fun l hl => hj l ?_⟩
    simp only [exB11, List.mem_cons, List.not_mem_nil, or_false] at hl
    rcases hl with rfl | rfl <;> simp

theorem exFile_sorted : exFile.Sorted := by
  unfold NistFile.Sorted
  decide

/-- what the file looks like -/
example : (exB10.lines.flatMap fun l => l ++ ['\n']) =
    "Atomic Number = 5\nAtomic Symbol = B\nMass Number = 10\nRelative Atomic Mass = 10.01293695(41)\nIsotopic Composition = 0.199(7)\nNotes = m\n\n".toList := by
  decide +kernel

/-- boron is read correctly -/
example : readNist exFile.render 5 = .ok
    ([("10B".toList, 199 / 1000), ("11B".toList, 801 / 1000)],
     [("10B".toList, some (1001293695 / 10 ^ 8)), ("11B".toList, some (1100930536 / 10 ^ 8))]) := by
  have h := C56_partial exFile_valid exFile_sorted (Z := 5) (by decide) (by
    intro p hp
    have : p = exB10 ∨ p = exB11 := by
      simpa [NistFile.isotopesOf, exFile, exBe, exB10, exB11] using hp
    rcases this with rfl | rfl <;> exact ⟨trivial, trivial⟩)
  have e : exFile.isotopesOf 5 = [exB10, exB11] := by rfl
  rw [e] at h
  have hv : exB10.comp.written.getD 0 = 199 / 1000 ∧ exB11.comp.written.getD 0 = 801 / 1000 ∧
      exB10.amu.written = some (1001293695 / 10 ^ 8) ∧
      exB11.amu.written = some (1100930536 / 10 ^ 8) := by decide +kernel
  have hnm : exB10.name = "10B".toList ∧ exB11.name = "11B".toList := by decide
  have h' : readNist exFile.render 5 = _ := h
  rw [h']
  simp only [List.map_cons, List.map_nil, hv, hnm]

/-- C57 is false of the code: an abundance without uncertainty, as for the 22 elements with a single
natural isotope in the shipped file, is read as 0 (`line.find("(")` is -1). -/
theorem C57_refuted :
    ¬ ∀ (f : NistFile), f.Valid → f.Sorted → ∀ p ∈ f.paras,
      ((f.isotopesOf p.Z).map Para.name).Nodup → ∀ v, p.comp.written = some v →
      ∃ ab iso, readNist f.render p.Z = .ok (ab, iso) ∧ dictGet p.name ab = .ok v := by
  intro hall
  have hp : exBe ∈ exFile.paras := by simp [exFile]
  have hn : ((exFile.isotopesOf exBe.Z).map Para.name).Nodup := by decide
  obtain ⟨ab, iso, h1, h2⟩ := hall exFile exFile_valid exFile_sorted exBe hp hn 1 (by decide +kernel)
  obtain ⟨ab', iso', h3, -, h4⟩ := C57_partial exFile_valid exFile_sorted hp hn
  rw [h1] at h3
  have : ab = ab' := by
    have := Except.ok.inj h3
    exact (Prod.mk.inj this).1
  subst this
  have h5 := h4 (fun h => h)
  rw [h2] at h5
  exact absurd (Except.ok.inj h5) (by norm_num)

/-! ## C59 -/

/-- C59: the symbol table maps an atomic number to a symbol iff the first paragraph with this atomic
number has this symbol.  Neither sorting nor distinctness is needed. -/
theorem C59_symbols {f : NistFile} (hf : f.Valid) :
    ∃ d, readSymbols f.render = .ok d ∧ (d.map Prod.fst).Nodup ∧
      ∀ z X, (z, X) ∈ d ↔ FirstSymbol f.paras z X :=
  readSymbols_file hf

/-- C59: lookup in the table. -/
theorem C59_lookup {f : NistFile} (hf : f.Valid) :
    ∃ d, readSymbols f.render = .ok d ∧
      (∀ pre p post, f.paras = pre ++ p :: post → (∀ q ∈ pre, q.Z ≠ p.Z) →
        dictGet (some (p.Z : ℤ)) d = .ok (some p.X)) ∧
      (∀ z : ℤ, (∀ p ∈ f.paras, (p.Z : ℤ) ≠ z) → dictGet (some z) d = .error .keyError) := by
  obtain ⟨d, h1, h2, h3⟩ := readSymbols_file hf
  refine ⟨d, h1, fun pre p post h hq => ?_, fun z hz => ?_⟩
  · exact dictGet_eq h2 ((h3 _ _).2 ⟨pre, p, post, h, hq, rfl, rfl⟩)
  · refine dictGet_missing fun hc => ?_
    obtain ⟨⟨z', X⟩, hm, rfl⟩ := List.mem_map.1 hc
    obtain ⟨pre, p, post, h, -, h4, -⟩ := (h3 _ _).1 hm
    exact hz p (by simp [h]) (by simpa using h4.symm)

example : ∃ d, readSymbols exFile.render = .ok d ∧ dictGet (some 5) d = .ok (some "B".toList) ∧
    dictGet (some 6) d = .error .keyError := by
  obtain ⟨d, h1, h2, h3⟩ := C59_lookup exFile_valid
  refine ⟨d, h1, h2 [exBe] exB10 [exB11] rfl (by decide), h3 6 ?_⟩
  decide

/-! ## C60 -/

/-- C60, proved part: the density of an element is found if no earlier line has a symbol that
contains the requested symbol.  For symbols with two letters this means: the first line with this
symbol is found.
Missing for the full statement: symbols with one letter that occurs in the symbol of an earlier line,
for which it is false (`C60_refuted`). -/
theorem C60_partial {α : Type} (conv : ℚ → α) {X : Str} (hX : IsSymbol X) {f : DensFile}
    (hf : f.Valid) {pre post : List DensLine} {l : DensLine} (h : f.all = pre ++ l :: post)
    (hl : l.X = X)
    (hn : if X.length = 2 then ∀ k ∈ pre, k.X ≠ X else ∀ k ∈ pre, ∀ c ∈ X, c ∉ k.X) :
    readDensity conv f.render X = .ok (some (conv l.rho.value)) := by
  refine readDensity_first conv hX hf h (by rw [hl]) fun k hk hc => ?_
  have hks := (hf.2 k (by rw [h]; simp [hk])).1
  split_ifs at hn with h2
  · exact hn k hk (infix_two h2 hks hc).symm
  · obtain ⟨c, t, rfl⟩ := List.exists_cons_of_ne_nil (symbol_ne_nil hX)
    exact hn k hk c (by simp) (hc.subset (by simp))

/-- C60, proved part: `None` for an element that is not in the list (two letters), or whose letter
occurs in no symbol of the list. -/
theorem C60_none_partial {α : Type} (conv : ℚ → α) {X : Str} (hX : IsSymbol X) {f : DensFile}
    (hf : f.Valid)
    (hn : if X.length = 2 then ∀ k ∈ f.all, k.X ≠ X else ∀ k ∈ f.all, ∀ c ∈ X, c ∉ k.X) :
    readDensity conv f.render X = .ok none := by
  refine readDensity_none conv hX hf fun k hk hc => ?_
  have hks := (hf.2 k hk).1
  split_ifs at hn with h2
  · exact hn k hk (infix_two h2 hks hc).symm
  · obtain ⟨c, t, rfl⟩ := List.exists_cons_of_ne_nil (symbol_ne_nil hX)
    exact hn k hk c (by simp) (hc.subset (by simp))

/-- beryllium and boron, two consecutive lines of the shipped file, with a comment -/
def exDens : DensFile :=
  ⟨["# Densities".toList],
   [⟨"Be".toList, 3, ⟨[1], some [8, 4, 8], none⟩, 9⟩, ⟨"B".toList, 3, ⟨[2], some [3, 7], none⟩, 10⟩],
   none⟩

example : exDens.render = "# Densities\nBe   1.848         \nB    2.37          \n".toList := by
  decide +kernel

theorem exDens_valid : exDens.Valid := by
  refine ⟨fun l hl => ?_, fun l hl => ?_⟩
  · simp only [exDens, List.mem_singleton] at hl
    subst hl
    exact ⟨by decide, .inr ⟨"Densities".toList, by decide⟩⟩
  · simp only [exDens, DensFile.all, Option.toList, List.append_nil, List.mem_cons,
      List.not_mem_nil, or_false] at hl
    rcases hl with rfl | rfl
    · exact ⟨⟨.inr (by decide), by decide⟩, by simp, by simp⟩
    · exact ⟨⟨.inl (by decide), by decide⟩, by simp, by simp⟩

example : readDensity id exDens.render "Be".toList = .ok (some (1848 / 1000)) := by
  have := C60_partial id (X := "Be".toList) ⟨.inr (by decide), by decide⟩ exDens_valid (pre := [])
    (l := ⟨"Be".toList, 3, ⟨[1], some [8, 4, 8], none⟩, 9⟩) rfl rfl (by simp)
  rw [this]
  decide +kernel

/-- C60 is false of the code: the first line whose symbol *contains* the requested symbol is used, so
boron gets the density of beryllium. -/
theorem C60_refuted :
    ¬ ∀ (X : Str) (f : DensFile), IsSymbol X → f.Valid → ∀ l ∈ f.all, l.X = X →
      (∀ k ∈ f.all, k.X = X → k = l) → readDensity id f.render X = .ok (some l.rho.value) := by
  intro hall
  have hB : IsSymbol "B".toList := ⟨.inl (by decide), by decide⟩
  have h1 := hall "B".toList exDens hB exDens_valid
    ⟨"B".toList, 3, ⟨[2], some [3, 7], none⟩, 10⟩ (by simp [exDens, DensFile.all]) rfl (by
      intro k hk hkX
      simp only [exDens, DensFile.all, Option.toList, List.append_nil, List.mem_cons,
        List.not_mem_nil, or_false] at hk
      rcases hk with rfl | rfl
      · exact absurd hkX (by decide)
      · rfl)
  have h2 := readDensity_first id hB exDens_valid (pre := [])
    (l := ⟨"Be".toList, 3, ⟨[1], some [8, 4, 8], none⟩, 9⟩) rfl (by decide) (by simp)
  rw [h1] at h2
  have h3 := Option.some.inj (Except.ok.inj h2)
  exact absurd h3 (by decide +kernel)

end Ries
