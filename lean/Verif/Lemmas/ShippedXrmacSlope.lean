import Verif.Lemmas.ShippedXrmac

/-! # Steepness of the shipped tables -/

namespace Ries

set_option maxRecDepth 100000

/-- between neighbouring rows with different energies, the relative change of the value in either direction is less than 100 times that of the energy -/
def steepLines (ls : List Line) : Prop := ls.IsChain fun p q => p.energy.value = q.energy.value ∨
  (q.mu.value * p.energy.value < p.mu.value * (p.energy.value + 100 * (q.energy.value - p.energy.value)) ∧
    p.mu.value * p.energy.value < q.mu.value * (p.energy.value + 100 * (q.energy.value - p.energy.value)))

instance (ls : List Line) : Decidable (steepLines ls) := inferInstanceAs (Decidable (List.IsChain _ _))

theorem shipped_steep1 : ∀ Z ∈ List.range' 1 40, steepLines (xrmacLines Z) := by decide +kernel
theorem shipped_steep2 : ∀ Z ∈ List.range' 41 26, steepLines (xrmacLines Z) := by decide +kernel
theorem shipped_steep3 : ∀ Z ∈ List.range' 67 26, steepLines (xrmacLines Z) := by decide +kernel

theorem shipped_steep {Z : ℕ} (hZ : Z ∈ List.range' 1 92) : steepLines (xrmacLines Z) := by
  rw [List.mem_range'_1] at hZ
  by_cases h1 : Z < 41
  · exact shipped_steep1 Z (List.mem_range'_1.2 ⟨hZ.1, by omega⟩)
  · by_cases h2 : Z < 67
    · exact shipped_steep2 Z (List.mem_range'_1.2 ⟨by omega, by omega⟩)
    · exact shipped_steep3 Z (List.mem_range'_1.2 ⟨by omega, by omega⟩)

/-- the power law between two such rows has an exponent of at most 100 -/
theorem steep_log {E0 E1 y0 y1 : ℝ} (h0 : 0 < E0) (h01 : E0 < E1) (hy0 : 0 < y0) (hy1 : 0 < y1)
    (h : y1 * E0 < y0 * (E0 + 100 * (E1 - E0)) ∧ y0 * E0 < y1 * (E0 + 100 * (E1 - E0))) :
    |Real.logb 10 y1 - Real.logb 10 y0| ≤ 100 * (Real.logb 10 E1 - Real.logb 10 E0) := by
  have h1 : 0 < E1 := h0.trans h01
  have b : (E0 + 100 * (E1 - E0)) / E0 ≤ (E1 / E0) ^ 100 := by
    have := one_add_mul_sub_le_pow (a := E1 / E0) (by have := div_pos h1 h0; linarith) 100
    refine le_trans (le_of_eq ?_) this
    field_simp
    push_cast
    ring
  have key : ∀ p q, 0 < p → 0 < q → q * E0 < p * (E0 + 100 * (E1 - E0)) →
      Real.logb 10 q - Real.logb 10 p ≤ 100 * (Real.logb 10 E1 - Real.logb 10 E0) := by
    intro p q hp hq hpq
    rw [← Real.logb_div hq.ne' hp.ne', ← Real.logb_div h1.ne' h0.ne']
    have e : (100 : ℝ) * Real.logb 10 (E1 / E0) = Real.logb 10 ((E1 / E0) ^ 100) := by
      rw [Real.logb_pow]
      norm_num
    rw [e]
    refine logb_le (div_pos hq hp) (le_trans (le_of_lt ?_) b)
    rw [div_lt_div_iff₀ hp h0]
    linarith
  rw [abs_le]
  constructor <;> linarith [key y0 y1 hy0 hy1 h.1, key y1 y0 hy1 hy0 h.2]

end Ries
