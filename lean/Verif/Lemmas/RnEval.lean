import Verif.Lemmas.RnIdem
import Mathlib.Analysis.SpecialFunctions.Trigonometric.Bounds
import Mathlib.Analysis.Real.Pi.Bounds

/-! # Values of rounding to nearest -/

namespace Ries.KN

/-- the rounded value of a positive number, given its exponent and significand -/
theorem rn_val {x : ℝ} (k n : ℤ) (h1 : (2 : ℝ) ^ k ≤ x) (h2 : x < 2 ^ (k + 1)) (h3 : (n : ℝ) - 1 / 2 ≤ x * 2 ^ (52 - k))
    (h4 : x * 2 ^ (52 - k) < n + 1 / 2) : rn x = n / 2 ^ (52 - k) := by
  have hx : 0 < x := lt_of_lt_of_le (by positivity) h1
  have hk : Int.log 2 |x| = k := by
    rw [abs_of_pos hx]
    apply le_antisymm
    · have : Int.log 2 x < k + 1 := (Int.lt_zpow_iff_log_lt (by norm_num) hx).1 (by simpa using h2)
      omega
    · exact (Int.zpow_le_iff_le_log (by norm_num) hx).1 (by simpa using h1)
  rw [rn_scaled x hk]
  have : round (x * 2 ^ (52 - k)) = n := by
    rw [round_eq, Int.floor_eq_iff]
    constructor <;> linarith
  rw [this]

/-- numbers just above -1 are rounded to -1 -/
theorem rn_near_neg_one {x : ℝ} (h0 : -1 ≤ x) (h1 : x < -1 + 1 / 2 ^ 54) : rn x = -1 := by
  rcases h0.eq_or_lt with rfl | h0
  · exact_mod_cast rn_exact (n := -1) (by norm_num)
  have hx : x < 0 := by norm_num at h1; linarith
  have hk : Int.log 2 |x| = -1 := by
    rw [abs_of_neg hx]
    have hx' : 0 < -x := by linarith
    apply le_antisymm
    · have : Int.log 2 (-x) < 0 := (Int.lt_zpow_iff_log_lt (by norm_num) hx').1 (by simp; linarith)
      omega
    · refine (Int.zpow_le_iff_le_log (by norm_num) hx').1 ?_
      norm_num at h1 ⊢; linarith
  rw [rn_scaled x hk]
  have : round (x * 2 ^ ((52 : ℤ) - -1)) = -2 ^ 53 := by
    rw [round_eq, Int.floor_eq_iff]
    norm_num at h1 ⊢
    constructor <;> linarith
  rw [this]
  norm_num

/-- `np.cos(np.pi)` is exactly -1 -/
theorem rn_cos_pi : rn (Real.cos (rn Real.pi)) = -1 := by
  apply rn_near_neg_one (Real.neg_one_le_cos _)
  set d := rn Real.pi - Real.pi with hd
  have e : rn Real.pi = Real.pi + d := by rw [hd]; ring
  have hdb : |d| ≤ 1 / 2 ^ 50 := by
    have := rn_rounding Real.pi
    rw [abs_of_pos Real.pi_pos] at this
    have h4 := Real.pi_lt_four
    rw [hd]
    norm_num at this ⊢
    linarith
  rw [e, add_comm, Real.cos_add_pi]
  have h2 := Real.one_sub_sq_div_two_le_cos (x := d)
  have h3 : d ^ 2 ≤ (1 / 2 ^ 50) ^ 2 := sq_le_sq' (by linarith [(abs_le.1 hdb).1]) (abs_le.1 hdb).2
  norm_num at h3 ⊢
  linarith

end Ries.KN
