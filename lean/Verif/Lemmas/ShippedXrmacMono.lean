import Verif.Lemmas.ShippedXrmac

/-! # Decrease of the values and steps at the edges in the shipped tables -/

namespace Ries

set_option maxRecDepth 100000

/-- the values decrease strictly between the energies `A` and `B` -/
def decrLines (A B : ℚ) (ls : List Line) : Prop := ls.IsChain fun p q => q.energy.value ≤ A ∨
  (B ≤ p.energy.value ∧ B < q.energy.value) ∨ (p.energy.value < q.energy.value ∧ q.mu.value < p.mu.value)

instance (A B : ℚ) (ls : List Line) : Decidable (decrLines A B ls) := inferInstanceAs (Decidable (List.IsChain _ _))

/-- the checks: decrease from 0.115606 MeV, in light elements from 0.0022 MeV, to 4 or 20 MeV; at most two values at an
energy, the second one larger -/
def checkMono (Z : ℕ) : Bool :=
  let ls := xrmacLines Z
  decide (decrLines (if Z ≤ 15 then 0.0022 else 0.115606) (if Z ≤ 15 then 20 else 4) ls) &&
    decide (ls.IsChain fun p q => p.energy.value < q.energy.value ∨ p.mu.value < q.mu.value)

theorem shipped_mono1 : ∀ Z ∈ List.range' 1 40, checkMono Z = true := by decide +kernel
theorem shipped_mono2 : ∀ Z ∈ List.range' 41 26, checkMono Z = true := by decide +kernel
theorem shipped_mono3 : ∀ Z ∈ List.range' 67 26, checkMono Z = true := by decide +kernel

theorem shipped_mono {Z : ℕ} (hZ : Z ∈ List.range' 1 92) : checkMono Z = true := by
  rw [List.mem_range'_1] at hZ
  by_cases h1 : Z < 41
  · exact shipped_mono1 Z (List.mem_range'_1.2 ⟨hZ.1, by omega⟩)
  · by_cases h2 : Z < 67
    · exact shipped_mono2 Z (List.mem_range'_1.2 ⟨by omega, by omega⟩)
    · exact shipped_mono3 Z (List.mem_range'_1.2 ⟨by omega, by omega⟩)

end Ries
