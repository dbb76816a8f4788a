import Verif.Model.RoundedGrid
import Verif.Spec.Rounded
import Verif.Props.Grid
import Verif.Lemmas.RnMono

/-! # Property C93: energy grids in floating point -/

namespace Ries

/-- Without rounding this is the grid of C10. -/
theorem linspaceR_exact (a b : ℝ) (m : ℕ) : energyGrid (.lims a b) (m + 2) = .ok ((linspaceR id a b m).map .fin) := by
  simp only [energyGrid, linspace_nat, linspaceR, id, Except.ok.injEq]
  rw [List.range_succ (n := m + 1), List.map_append, List.map_append, List.map_map]
  congr 1
  · apply List.map_congr_left
    intro i _
    simp [add_comm]
  · simp only [List.map_cons, List.map_nil]
    have hm : (m : ℝ) + 1 ≠ 0 := by positivity
    congr 2
    push_cast
    field_simp
    ring

/-- C93: in rounded arithmetic of relative accuracy `u` the energy grid between two representable limits `a ≤ b` starts at `a`,
ends at `b`, never decreases, stays between the limits, and every point but the last (which is exact) is within `9 u max(|a|,|b|)` of the exact point, for all
numbers of points up to `1 / (4 u)` (2e15 in double precision). -/
theorem C93_rounded_grid {fl : ℝ → ℝ} {u : ℝ} (hu : 0 ≤ u) (hfl : Rounding u fl) (hmono : Monotone fl) {a b : ℝ} (hab : a ≤ b)
    (ha : fl a = a) (hb : fl b = b) (m : ℕ) (hm : 4 * u * (m + 1) ≤ 1) :
    (linspaceR fl a b m).length = m + 2 ∧ (linspaceR fl a b m).head? = some a ∧ (linspaceR fl a b m).getLast? = some b ∧
      OrderedInside a b (linspaceR fl a b m) ∧
      ∀ i, (h : i < (linspaceR fl a b m).length) →
        |(linspaceR fl a b m)[i] - (a + i * ((b - a) / (m + 1)))| ≤ 9 * u * max |a| |b| := by
  have hm0 : (0 : ℝ) ≤ m := Nat.cast_nonneg m
  have hm1 : (0 : ℝ) < m + 1 := by linarith
  have hu4 : u ≤ 1 / 4 := by nlinarith
  have f0 : fl 0 = 0 := by
    have := hfl 0
    simpa using this
  have up : ∀ x, 0 ≤ x → fl x ≤ x * (1 + u) ∧ x * (1 - u) ≤ fl x ∧ 0 ≤ fl x := by
    intro x hx
    have := abs_le.1 (hfl x)
    rw [abs_of_nonneg hx] at this
    refine ⟨by linarith [this.2], by linarith [this.1], ?_⟩
    rw [← f0]; exact hmono hx
  set delta := fl (b - a) with hdelta
  set step := fl (delta / (m + 1)) with hstep
  have hd0 : 0 ≤ b - a := by linarith
  obtain ⟨d1, d2, d3⟩ := up (b - a) hd0
  rw [← hdelta] at d1 d2 d3
  obtain ⟨s1, s2, s3⟩ := up (delta / (m + 1)) (div_nonneg d3 hm1.le)
  rw [← hstep] at s1 s2 s3
  set D := (b - a) / (m + 1) with hD
  have hD0 : 0 ≤ D := div_nonneg hd0 hm1.le
  have eD : (m + 1) * D = b - a := by rw [hD]; field_simp
  -- step between D (1 - u)^2 and D (1 + u)^2
  have st1 : step ≤ D * (1 + u) ^ 2 := by
    have : delta / (m + 1) ≤ D * (1 + u) := by
      rw [hD, div_mul_eq_mul_div]; exact div_le_div_of_nonneg_right d1 hm1.le
    nlinarith
  have st2 : D * (1 - u) ^ 2 ≤ step := by
    have : D * (1 - u) ≤ delta / (m + 1) := by
      rw [hD, div_mul_eq_mul_div]; exact div_le_div_of_nonneg_right d2 hm1.le
    nlinarith
  -- the products
  have pr : ∀ i : ℕ, fl (i * step) ≤ i * D * (1 + u) ^ 3 ∧ i * D * (1 - u) ^ 3 ≤ fl (i * step) ∧ 0 ≤ fl (i * step) := by
    intro i
    have hi : (0 : ℝ) ≤ i := Nat.cast_nonneg i
    obtain ⟨p1, p2, p3⟩ := up (i * step) (mul_nonneg hi s3)
    have q1 : (i : ℝ) * step ≤ i * (D * (1 + u) ^ 2) := mul_le_mul_of_nonneg_left st1 hi
    have q2 : i * (D * (1 - u) ^ 2) ≤ (i : ℝ) * step := mul_le_mul_of_nonneg_left st2 hi
    refine ⟨?_, ?_, p3⟩
    · have := mul_le_mul_of_nonneg_right q1 (by linarith : 0 ≤ 1 + u)
      calc fl (i * step) ≤ i * step * (1 + u) := p1
        _ ≤ i * (D * (1 + u) ^ 2) * (1 + u) := this
        _ = _ := by ring
    · have := mul_le_mul_of_nonneg_right q2 (by linarith : 0 ≤ 1 - u)
      calc i * D * (1 - u) ^ 3 = i * (D * (1 - u) ^ 2) * (1 - u) := by ring
        _ ≤ i * step * (1 - u) := this
        _ ≤ _ := p2
  have hcube : (1 + u) ^ 3 ≤ 1 + 4 * u := by nlinarith [mul_nonneg hu hu]
  have hcube' : 1 - 4 * u ≤ (1 - u) ^ 3 := by nlinarith [mul_nonneg hu hu]
  -- below the upper limit
  have below : ∀ i : ℕ, i ≤ m → fl (i * step) + a ≤ b := by
    intro i hi
    have hi' : (i : ℝ) ≤ m := by exact_mod_cast hi
    have h1 : (i : ℝ) * D * (1 + u) ^ 3 ≤ m * D * (1 + 4 * u) :=
      mul_le_mul (mul_le_mul_of_nonneg_right hi' hD0) hcube (by positivity) (by positivity)
    have h2 : (m : ℝ) * D * (1 + 4 * u) ≤ (m + 1) * D := by
      have : (m : ℝ) * (1 + 4 * u) ≤ m + 1 := by nlinarith
      nlinarith
    linarith [(pr i).1]
  have pt : ∀ i : ℕ, i ≤ m → a ≤ fl (fl (i * step) + a) ∧ fl (fl (i * step) + a) ≤ b := by
    intro i hi
    constructor
    · calc a = fl a := ha.symm
        _ ≤ _ := hmono (by linarith [(pr i).2.2])
    · calc _ ≤ fl b := hmono (below i hi)
        _ = b := hb
  refine ⟨by simp [linspaceR], ?_, by simp [linspaceR], ⟨?_, ?_⟩, ?_⟩
  · simp [linspaceR, List.range_succ_eq_map, f0, ha]
  · unfold linspaceR
    rw [List.pairwise_append]
    refine ⟨?_, by simp, ?_⟩
    · rw [List.pairwise_map]
      refine List.pairwise_lt_range.imp ?_
      intro i j hij
      apply hmono
      have : (i : ℝ) ≤ j := by exact_mod_cast hij.le
      have := hmono (mul_le_mul_of_nonneg_right this s3)
      rw [← hdelta, ← hstep]
      linarith
    · intro x hx y hy
      obtain ⟨i, hi, rfl⟩ := List.mem_map.1 hx
      rw [List.mem_singleton] at hy
      subst hy
      exact (pt i (by have := List.mem_range.1 hi; omega)).2
  · intro x hx
    unfold linspaceR at hx
    rcases List.mem_append.1 hx with hx | hx
    · obtain ⟨i, hi, rfl⟩ := List.mem_map.1 hx
      exact pt i (by have := List.mem_range.1 hi; omega)
    · rw [List.mem_singleton] at hx
      subst hx
      exact ⟨hab, le_rfl⟩
  · intro i h
    have hM0 : 0 ≤ max |a| |b| := le_max_of_le_left (abs_nonneg _)
    have hlen : i < m + 2 := by
      have h' := h
      simp [linspaceR] at h'
      omega
    rcases Nat.lt_or_ge i (m + 1) with hi | hi
    · have e : (linspaceR fl a b m)[i] = fl (fl (i * step) + a) := by
        simp only [linspaceR]
        rw [List.getElem_append_left (by simpa using hi)]
        simp [hstep, hdelta]
      rw [e]
      have him : (i : ℝ) ≤ m + 1 := by exact_mod_cast hi.le
      obtain ⟨p1, p2, p3⟩ := pr i
      have hiD : (i : ℝ) * D ≤ b - a := by rw [← eD]; exact mul_le_mul_of_nonneg_right him hD0
      have hiD0 : 0 ≤ (i : ℝ) * D := by positivity
      have k1 : |fl (i * step) - i * D| ≤ 4 * u * (i * D) := by
        have q1 := mul_le_mul_of_nonneg_left hcube hiD0
        have q2 := mul_le_mul_of_nonneg_left hcube' hiD0
        rw [abs_le]; constructor <;> linarith
      obtain ⟨g1, g2⟩ := pt i (by omega)
      have k2 := hfl (fl (i * step) + a)
      have habs : |fl (i * step) + a| ≤ max |a| |b| := by
        rw [abs_le]
        constructor
        · have : -|a| ≤ a := neg_abs_le a
          have := le_max_left |a| |b|
          linarith
        · have : b ≤ |b| := le_abs_self b
          have := le_max_right |a| |b|
          linarith [below i (by omega)]
      have hba : b - a ≤ 2 * max |a| |b| := by
        have h1 : b ≤ |b| := le_abs_self b
        have h2 : -a ≤ |a| := neg_le_abs a
        have := le_max_left |a| |b|
        have := le_max_right |a| |b|
        linarith
      have k5 : 4 * u * (i * D) ≤ 4 * u * (2 * max |a| |b|) := mul_le_mul_of_nonneg_left (hiD.trans hba) (by linarith)
      have e2 : fl (fl (i * step) + a) - (a + i * D) =
          (fl (fl (i * step) + a) - (fl (i * step) + a)) + (fl (i * step) - i * D) := by ring
      rw [e2]
      refine (abs_add_le _ _).trans ?_
      have := mul_le_mul_of_nonneg_left habs hu
      linarith
    · have hi' : i = m + 1 := by omega
      subst hi'
      have e : (linspaceR fl a b m)[m + 1] = b := by
        simp only [linspaceR]
        rw [List.getElem_append_right (by simp)]
        simp
      rw [e]
      have : a + ((m + 1 : ℕ) : ℝ) * D = b := by push_cast; linarith
      rw [this, sub_self, abs_zero]
      positivity

/-- Double precision, from 1000 to 2000 eV in a million points. -/
example : OrderedInside 1000 2000 (linspaceR KN.rn 1000 2000 999998) := by
  have h1 : KN.rn 1000 = 1000 := by exact_mod_cast KN.rn_exact (n := 1000) (by norm_num)
  have h2 : KN.rn 2000 = 2000 := by exact_mod_cast KN.rn_exact (n := 2000) (by norm_num)
  exact (C93_rounded_grid (by norm_num) KN.rn_rounding KN.rn_monotone (by norm_num) h1 h2 999998 (by norm_num)).2.2.2.1

end Ries
