import Verif.Lemmas.RnMono

/-! # Rounding to nearest: powers of two, repetition, values next to 1 -/

namespace Ries.KN

theorem log_scale {x : ℝ} (hx : x ≠ 0) (e : ℤ) : Int.log 2 |x * 2 ^ e| = Int.log 2 |x| + e := by
  have hp : (0 : ℝ) < |x| := abs_pos.2 hx
  have h2 : (0 : ℝ) < 2 ^ e := by positivity
  have hq : |x * 2 ^ e| = |x| * 2 ^ e := by rw [abs_mul, abs_of_pos h2]
  have hpos : 0 < |x * 2 ^ e| := by rw [hq]; positivity
  have lo : (2 : ℝ) ^ Int.log 2 |x| ≤ |x| := by
    simpa using Int.zpow_log_le_self (R := ℝ) (b := 2) (by norm_num) hp
  have hi : |x| < (2 : ℝ) ^ (Int.log 2 |x| + 1) := by
    simpa using Int.lt_zpow_succ_log_self (R := ℝ) (b := 2) (by norm_num) |x|
  apply le_antisymm
  · have : Int.log 2 |x * 2 ^ e| < Int.log 2 |x| + e + 1 := by
      refine (Int.lt_zpow_iff_log_lt (by norm_num) hpos).1 ?_
      rw [hq, show Int.log 2 |x| + e + 1 = Int.log 2 |x| + 1 + e by ring]
      push_cast
      rw [zpow_add₀ (by norm_num : (2 : ℝ) ≠ 0)]
      exact mul_lt_mul_of_pos_right hi h2
    omega
  · refine (Int.zpow_le_iff_le_log (by norm_num) hpos).1 ?_
    rw [hq]
    push_cast
    rw [zpow_add₀ (by norm_num : (2 : ℝ) ≠ 0)]
    exact mul_le_mul_of_nonneg_right lo h2.le

theorem rn_scale (x : ℝ) (e : ℤ) : rn (x * 2 ^ e) = rn x * 2 ^ e := by
  rcases eq_or_ne x 0 with rfl | hx
  · simp [rn]
  have h2 : (2 : ℝ) ^ e ≠ 0 := by positivity
  rw [rn_scaled _ (log_scale hx e), rn_scaled x rfl]
  have e1 : (2 : ℝ) ^ (52 - (Int.log 2 |x| + e)) = 2 ^ (52 - Int.log 2 |x|) / 2 ^ e := by
    rw [← zpow_sub₀ (by norm_num : (2 : ℝ) ≠ 0)]; congr 1; ring
  rw [e1]
  have e2 : x * 2 ^ e * (2 ^ (52 - Int.log 2 |x|) / 2 ^ e) = x * 2 ^ (52 - Int.log 2 |x|) := by field_simp
  rw [e2]
  field_simp

theorem rn_idem (x : ℝ) : rn (rn x) = rn x := by
  rcases eq_or_ne x 0 with rfl | hx
  · simp [rn]
  set k := Int.log 2 |x| with hk
  have hi : |x| ≤ (2 : ℝ) ^ (k + 1) := by
    simpa using (Int.lt_zpow_succ_log_self (R := ℝ) (b := 2) (by norm_num) |x|).le
  have e : rn x = ((round (x * 2 ^ (52 - k)) : ℤ) : ℝ) * 2 ^ (-(52 - k)) := by
    rw [rn_scaled x hk.symm, zpow_neg, div_eq_mul_inv]
  have hp : (0 : ℝ) < 2 ^ (52 - k) := by positivity
  have hb : |x * 2 ^ (52 - k)| ≤ ((2 ^ 53 : ℤ) : ℝ) := by
    rw [abs_mul, abs_of_pos hp, ← two_zpow_succ_mul k]
    exact mul_le_mul_of_nonneg_right hi hp.le
  have hr : |round (x * 2 ^ (52 - k))| ≤ 2 ^ 53 := by
    have hb' := abs_le.1 hb
    have a1 := round_mono' hb'.1
    have a2 := round_mono' hb'.2
    rw [round_intCast] at a2
    rw [show -(((2 ^ 53 : ℤ)) : ℝ) = ((-2 ^ 53 : ℤ) : ℝ) by push_cast; ring, round_intCast] at a1
    exact abs_le.2 ⟨a1, a2⟩
  rw [e, rn_scale, rn_exact hr]

/-- Numbers just below 1 are rounded to 1. -/
theorem rn_near_one {x : ℝ} (h0 : 1 - 1 / 2 ^ 54 < x) (h1 : x ≤ 1) : rn x = 1 := by
  rcases h1.eq_or_lt with rfl | h1
  · exact_mod_cast rn_exact (n := 1) (by norm_num)
  have hx : 0 < x := by norm_num at h0; linarith
  have hk : Int.log 2 |x| = -1 := by
    rw [abs_of_pos hx]
    apply le_antisymm
    · have : Int.log 2 x < 0 := (Int.lt_zpow_iff_log_lt (by norm_num) hx).1 (by simpa using h1)
      omega
    · refine (Int.zpow_le_iff_le_log (by norm_num) hx).1 ?_
      norm_num at h0 ⊢; linarith
  rw [rn_scaled x hk]
  have : round (x * 2 ^ ((52 : ℤ) - -1)) = 2 ^ 53 := by
    rw [round_eq, Int.floor_eq_iff]
    norm_num at h0 ⊢
    constructor <;> linarith
  rw [this]
  norm_num

end Ries.KN
