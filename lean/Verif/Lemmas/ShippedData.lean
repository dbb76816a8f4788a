import Verif.Data.Densities
import Verif.Lemmas.NaturalElements

/-! # The shipped files meet the conditions of the readers

The facts on the finite tables are checked by kernel evaluation. -/

namespace Ries

open Text

set_option maxRecDepth 100000

/-- no `=`, no newline -/
def safeStr (s : String) : Bool := s.toList.all fun c => c != '=' && c != '\n'

theorem safe_spec {s : String} (h : safeStr s = true) : '=' ∉ s.toList ∧ '\n' ∉ s.toList := by
  simp only [safeStr, List.all_eq_true, Bool.and_eq_true, bne_iff_ne] at h
  exact ⟨fun hc => (h _ hc).1 rfl, fun hc => (h _ hc).2 rfl⟩

theorem shipped_strings : (shippedParas.all fun p =>
    safeStr p.X && safeStr p.weight && safeStr p.notes && p.X.toList != []) = true := by
  decide +kernel

theorem shipped_header : (shippedHeader.all fun l => l.all safeStr) = true := by decide +kernel

/-- validity of a value, as a computation -/
def decOk (x : Dec) : Bool := x.ip != [] && (match x.exp with
  | none => true
  | some e => e.2 != [])

theorem decOk_spec {x : Dec} (h : decOk x = true) : x.Valid := by
  simp only [decOk, Bool.and_eq_true, bne_iff_ne] at h
  refine ⟨h.1, fun e he => ?_⟩
  have := h.2
  rw [he] at this
  simpa using this

def valueOk : PropValue → Bool
  | .empty => true
  | .plain x => decOk x
  | .unc x u => decOk x && u.all fun c => c != '=' && c != '\n'

theorem valueOk_spec {F : PropValue} (h : valueOk F = true) : F.Valid := by
  cases F with
  | empty => trivial
  | plain x => exact decOk_spec h
  | unc x u =>
    simp only [valueOk, Bool.and_eq_true, List.all_eq_true, bne_iff_ne] at h
    exact ⟨decOk_spec h.1, fun hc => (h.2 _ hc).2 rfl, fun hc => (h.2 _ hc).1 rfl⟩

theorem shipped_values : (shippedParas.all fun p => valueOk p.amu && valueOk p.comp) = true := by
  decide +kernel

theorem junk_weight {s : String} (h : safeStr s = true) :
    Junk ("Standard Atomic Weight = ".toList ++ s.toList) := by
  obtain ⟨h1, h2⟩ := safe_spec h
  have := junk_prop (k := "Standard Atomic Weight ".toList) (by decide) (by decide) h1 h2 (by decide)
  exact this

theorem junk_notes {s : String} (h : safeStr s = true) : Junk ("Notes = ".toList ++ s.toList) := by
  obtain ⟨h1, h2⟩ := safe_spec h
  have := junk_prop (k := "Notes ".toList) (by decide) (by decide) h1 h2 (by decide)
  exact this

theorem junk_nil : Junk [] := junk_of_no_eq (by simp) (by simp)

theorem shippedPara_valid {p : ShippedPara} (hp : p ∈ shippedParas) : p.para.Valid := by
  have h1 := List.all_eq_true.1 shipped_strings p hp
  have h2 := List.all_eq_true.1 shipped_values p hp
  simp only [Bool.and_eq_true, bne_iff_ne] at h1 h2
  obtain ⟨⟨⟨hX, hw⟩, hn⟩, hne⟩ := h1
  refine ⟨hne, (safe_spec hX).2, (safe_spec hX).1, valueOk_spec h2.1, valueOk_spec h2.2,
    fun l hl => ?_⟩
  simp only [ShippedPara.para, List.mem_cons, List.not_mem_nil, or_false] at hl
  rcases hl with rfl | rfl | rfl
  · exact junk_weight hw
  · exact junk_notes hn
  · exact junk_nil

theorem shippedNist_valid : shippedNist.Valid := by
  refine ⟨fun l hl => ?_, fun p hp => ?_, junk_notes (s := " ") (by decide)⟩
  · obtain ⟨ss, hs, rfl⟩ := List.mem_map.1 hl
    have h := List.all_eq_true.1 (List.all_eq_true.1 shipped_header ss hs)
    refine junk_of_no_eq ?_ ?_
    · intro hc
      obtain ⟨s, hs, hc⟩ := List.mem_flatMap.1 hc
      exact (safe_spec (h s hs)).1 hc
    · intro hc
      obtain ⟨s, hs, hc⟩ := List.mem_flatMap.1 hc
      exact (safe_spec (h s hs)).2 hc
  · rcases List.mem_append.1 hp with hp | hp
    · obtain ⟨q, hq, rfl⟩ := List.mem_map.1 hp
      exact shippedPara_valid (List.mem_of_mem_dropLast hq)
    · obtain ⟨q, hq, rfl⟩ := List.mem_map.1 hp
      have hq : q ∈ shippedParas := List.mem_of_getLast? (by simpa using hq)
      obtain ⟨h1, h2, h3, h4, h5, h6⟩ := shippedPara_valid hq
      exact ⟨h1, h2, h3, h4, h5, fun l hl => h6 l (List.mem_of_mem_take hl)⟩

theorem shippedNist_sorted : shippedNist.Sorted := by
  have h : shippedNist.paras.IsChain fun p q => p.Z ≤ q.Z := by decide +kernel
  exact List.isChain_iff_pairwise.1 h

/-- the symbol of an element according to the file -/
def symbolOf (Z : ℕ) : Str := ((shippedNist.paras.find? fun p => p.Z = Z).map Para.X).getD []

/-- one check for every atomic number -/
def checkZ (Z : ℕ) : Bool :=
  let ps := shippedNist.isotopesOf Z
  decide ((ps.map Para.name).Nodup) && ps.all (fun p => (p.amu.asRead none).isSome) &&
    (shippedNist.paras.find? fun p => p.Z = Z).isSome &&
    ((symbolOf Z).length == 1 || (symbolOf Z).length == 2) && (symbolOf Z).all Char.isAlpha

theorem shipped_check : ∀ Z ∈ List.range' 1 118, checkZ Z = true := by decide +kernel

theorem shipped_distinct : ((List.range' 1 118).map symbolOf).Nodup := by decide +kernel

/-! ## Densities -/

theorem shipped_comments : ((shippedDensityComments.map (·.flatMap String.toList)).all fun l =>
    l.all (· != '\n') && (l == ['#'] || "# ".toList.isPrefixOf l)) = true := by decide +kernel

theorem shipped_density_lines : ((shippedDensityLines ++ [shippedDensityLast]).all fun l =>
    (l.X.length == 1 || l.X.length == 2) && l.X.all Char.isAlpha && decOk l.rho) = true := by
  decide +kernel

theorem shippedDensities_valid : shippedDensities.Valid := by
  refine ⟨fun l hl => ?_, fun l hl => ?_⟩
  · have h := List.all_eq_true.1 shipped_comments l hl
    simp only [Bool.and_eq_true, List.all_eq_true, bne_iff_ne, Bool.or_eq_true, beq_iff_eq,
      List.isPrefixOf_iff_prefix] at h
    refine ⟨fun hc => h.1 _ hc rfl, h.2.imp id ?_⟩
    rintro ⟨t, rfl⟩
    exact ⟨t, rfl⟩
  · have h := List.all_eq_true.1 shipped_density_lines l hl
    simp only [Bool.and_eq_true, List.all_eq_true, Bool.or_eq_true, beq_iff_eq] at h
    exact ⟨⟨h.1.1, h.1.2⟩, decOk_spec h.2⟩

theorem shipped_importable : Importable shippedNist shippedDensities symbolOf := by
  have hc : ∀ Z ∈ List.range' 1 118, ((shippedNist.isotopesOf Z).map Para.name).Nodup ∧
      (∀ p ∈ shippedNist.isotopesOf Z, (p.amu.asRead none).isSome) ∧
      (shippedNist.paras.find? fun p => p.Z = Z).isSome ∧ IsSymbol (symbolOf Z) := by
    intro Z hZ
    have h := shipped_check Z hZ
    simp only [checkZ, Bool.and_eq_true, decide_eq_true_eq, List.all_eq_true, Bool.or_eq_true,
      beq_iff_eq] at h
    exact ⟨h.1.1.1.1, h.1.1.1.2, h.1.1.2, h.1.2, h.2⟩
  refine ⟨shippedNist_valid, shippedNist_sorted, shippedDensities_valid, fun Z hZ => (hc Z hZ).1,
    fun Z hZ => (hc Z hZ).2.1, fun Z hZ => ?_, fun Z hZ => (hc Z hZ).2.2.2, shipped_distinct⟩
  obtain ⟨p, hp⟩ := Option.isSome_iff_exists.1 (hc Z hZ).2.2.1
  exact ⟨p, hp, by rw [symbolOf, hp]; rfl⟩

end Ries
