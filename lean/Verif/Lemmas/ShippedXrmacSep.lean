import Verif.Lemmas.ShippedXrmac

/-! # Separation of the energies and size of the values in the shipped tables -/

namespace Ries

set_option maxRecDepth 100000

/-- neighbouring energies are equal or differ by a factor of at least 1.00001; all values are between 0.001 and 100000 -/
def checkSep (Z : ℕ) : Bool :=
  let ls := xrmacLines Z
  decide (ls.IsChain fun a b => a.energy.value = b.energy.value ∨ a.energy.value * (1 + 1 / 100000) ≤ b.energy.value) &&
    ls.all (fun l => decide (1 / 1000 ≤ l.mu.value) && decide (l.mu.value ≤ 100000))

theorem shipped_sep1 : ∀ Z ∈ List.range' 1 40, checkSep Z = true := by decide +kernel
theorem shipped_sep2 : ∀ Z ∈ List.range' 41 26, checkSep Z = true := by decide +kernel
theorem shipped_sep3 : ∀ Z ∈ List.range' 67 26, checkSep Z = true := by decide +kernel

theorem shipped_sep {Z : ℕ} (hZ : Z ∈ List.range' 1 92) : checkSep Z = true := by
  rw [List.mem_range'_1] at hZ
  by_cases h1 : Z < 41
  · exact shipped_sep1 Z (List.mem_range'_1.2 ⟨hZ.1, by omega⟩)
  · by_cases h2 : Z < 67
    · exact shipped_sep2 Z (List.mem_range'_1.2 ⟨by omega, by omega⟩)
    · exact shipped_sep3 Z (List.mem_range'_1.2 ⟨by omega, by omega⟩)

/-- the facts that are checked -/
structure SepTable (ls : List Line) : Prop where
  sep : ls.Pairwise fun a b => a.energy.value = b.energy.value ∨ a.energy.value * (1 + 1 / 100000) ≤ b.energy.value
  size : ∀ l ∈ ls, 1 / 1000 ≤ l.mu.value ∧ l.mu.value ≤ 100000
  range : ∀ l ∈ ls, 1 / 1000 ≤ l.energy.value ∧ l.energy.value ≤ 20

theorem sep_of {ls : List Line} (hg : GoodTable ls)
    (hc : ls.IsChain fun a b => a.energy.value = b.energy.value ∨ a.energy.value * (1 + 1 / 100000) ≤ b.energy.value)
    (hs : ∀ l ∈ ls, 1 / 1000 ≤ l.mu.value ∧ l.mu.value ≤ 100000) : SepTable ls := by
  refine ⟨?_, hs, ?_⟩
  · -- the relation is transitive on positive energies
    have hpos := fun l hl => (hg.pos l hl).1
    clear hg hs
    induction ls with
    | nil => exact List.Pairwise.nil
    | cons a ls ih =>
      rw [List.isChain_cons] at hc
      have ih := ih hc.2 fun l hl => hpos l (by simp [hl])
      refine List.pairwise_cons.2 ⟨fun b hb => ?_, ih⟩
      cases ls with
      | nil => simp at hb
      | cons c ls =>
        have hac := hc.1 c rfl
        rcases List.mem_cons.1 hb with rfl | hb
        · exact hac
        · have hcb := (List.pairwise_cons.1 ih).1 b hb
          have pa := hpos a (by simp)
          have pc := hpos c (by simp)
          rcases hac with h1 | h1
          · rw [h1]; exact hcb
          · rcases hcb with h2 | h2
            · rw [← h2]; exact Or.inr h1
            · exact Or.inr (by linarith)
  · intro l hl
    obtain ⟨f, hf⟩ : ∃ f, ls.head? = some f := by
      cases h : ls with
      | nil => exact absurd h hg.ne_nil
      | cons f s => exact ⟨f, rfl⟩
    obtain ⟨g, hgl⟩ : ∃ g, ls.getLast? = some g := ⟨_, List.getLast?_eq_getLast_of_ne_nil hg.ne_nil⟩
    have h1 := hg.first
    have h2 := hg.last
    rw [hf] at h1
    rw [hgl] at h2
    simp only [Option.map_some, Option.some.injEq] at h1 h2
    rw [← h1, ← h2]
    constructor
    · cases ls with
      | nil => simp at hl
      | cons d s =>
        obtain rfl : d = f := by simpa using hf
        rcases List.mem_cons.1 hl with rfl | hl
        · exact le_rfl
        · exact (List.pairwise_cons.1 hg.sorted).1 l hl
    · obtain ⟨s, hs⟩ := List.getLast?_eq_some_iff.1 hgl
      have h3 := hg.sorted
      rw [hs] at h3 hl
      rcases List.mem_append.1 hl with hl | hl
      · exact (List.pairwise_append.1 h3).2.2 l hl g (by simp)
      · rw [List.mem_singleton.1 hl]

theorem shipped_sepTable {Z : ℕ} (hZ : Z ∈ List.range' 1 92) : SepTable (xrmacLines Z) := by
  have h := shipped_sep hZ
  have hg := shipped_good hZ
  unfold checkSep at h
  generalize xrmacLines Z = ls at h hg
  simp only [Bool.and_eq_true, decide_eq_true_eq, List.all_eq_true] at h
  exact sep_of hg h.1 h.2

end Ries
