import Verif.Lemmas.RoundedKN

/-! # Rounding to nearest is monotone -/

namespace Ries.KN

theorem round_mono' {x y : ℝ} (h : x ≤ y) : round x ≤ round y := by
  rw [round_eq, round_eq]; exact Int.floor_mono (by linarith)

/-- `rn` of a number scaled to the integers of the binade of exponent `k`. -/
theorem rn_scaled (x : ℝ) {k : ℤ} (hk : Int.log 2 |x| = k) : rn x = round (x * 2 ^ (52 - k)) / 2 ^ (52 - k) := by
  unfold rn; rw [hk]

/-- A bound that is an integer on the scale of the argument is preserved. -/
theorem rn_le_of {x : ℝ} {k : ℤ} (hk : Int.log 2 |x| = k) {n : ℤ} {b : ℝ} (hb : b * 2 ^ (52 - k) = n) (h : x ≤ b) : rn x ≤ b := by
  have hp : (0 : ℝ) < 2 ^ (52 - k) := by positivity
  rw [rn_scaled x hk, div_le_iff₀ hp, hb]
  have := round_mono' (mul_le_mul_of_nonneg_right h hp.le)
  rw [hb, round_intCast] at this
  exact_mod_cast this

theorem le_rn_of {x : ℝ} {k : ℤ} (hk : Int.log 2 |x| = k) {n : ℤ} {b : ℝ} (hb : b * 2 ^ (52 - k) = n) (h : b ≤ x) : b ≤ rn x := by
  have hp : (0 : ℝ) < 2 ^ (52 - k) := by positivity
  rw [rn_scaled x hk, le_div_iff₀ hp, hb]
  have := round_mono' (mul_le_mul_of_nonneg_right h hp.le)
  rw [hb, round_intCast] at this
  exact_mod_cast this

theorem two_zpow_mul (k : ℤ) : (2 : ℝ) ^ k * 2 ^ (52 - k) = ((2 ^ 52 : ℤ) : ℝ) := by
  rw [← zpow_add₀ (by norm_num : (2 : ℝ) ≠ 0), show k + (52 - k) = 52 by ring]; norm_num

theorem two_zpow_succ_mul (k : ℤ) : (2 : ℝ) ^ (k + 1) * 2 ^ (52 - k) = ((2 ^ 53 : ℤ) : ℝ) := by
  rw [← zpow_add₀ (by norm_num : (2 : ℝ) ≠ 0), show k + 1 + (52 - k) = 53 by ring]; norm_num

theorem rn_monotone : Monotone rn := by
  intro x y hxy
  have z : rn 0 = 0 := by simp [rn]
  have key : ∀ {x y : ℝ}, x ≤ y → Int.log 2 |x| = Int.log 2 |y| → rn x ≤ rn y := by
    intro x y hxy h
    rw [rn_scaled x rfl, rn_scaled y h.symm]
    apply div_le_div_of_nonneg_right _ (by positivity)
    have := round_mono' (mul_le_mul_of_nonneg_right hxy (by positivity : (0 : ℝ) ≤ 2 ^ (52 - Int.log 2 |x|)))
    exact_mod_cast this
  have lo : ∀ x : ℝ, x ≠ 0 → (2 : ℝ) ^ Int.log 2 |x| ≤ |x| := fun x hx => by
    simpa using Int.zpow_log_le_self (R := ℝ) (b := 2) (by norm_num) (abs_pos.2 hx)
  have hi : ∀ x : ℝ, |x| ≤ (2 : ℝ) ^ (Int.log 2 |x| + 1) := fun x => by
    simpa using (Int.lt_zpow_succ_log_self (R := ℝ) (b := 2) (by norm_num) |x|).le
  rcases lt_trichotomy x 0 with hx | rfl | hx
  · rcases lt_trichotomy y 0 with hy | rfl | hy
    · -- both negative
      have hlog : Int.log 2 |y| ≤ Int.log 2 |x| :=
        Int.log_mono_right (abs_pos.2 hy.ne) (by rw [abs_of_neg hx, abs_of_neg hy]; linarith)
      rcases hlog.eq_or_lt with h | h
      · exact key hxy h.symm
      · have a : rn x ≤ -2 ^ Int.log 2 |x| :=
          rn_le_of rfl (n := -2 ^ 52) (by rw [neg_mul, two_zpow_mul]; norm_num) (by have := lo x hx.ne; rw [abs_of_neg hx] at this ⊢; linarith)
        have b : -2 ^ (Int.log 2 |y| + 1) ≤ rn y :=
          le_rn_of rfl (n := -2 ^ 53) (by rw [neg_mul, two_zpow_succ_mul]; norm_num) (by have := hi y; rw [abs_of_neg hy] at this ⊢; linarith)
        have c : (2 : ℝ) ^ (Int.log 2 |y| + 1) ≤ 2 ^ Int.log 2 |x| := zpow_le_zpow_right₀ (by norm_num) (by omega)
        linarith
    · rw [z]; exact rn_le_of rfl (n := 0) (by simp) hx.le
    · exact (rn_le_of (b := 0) rfl (n := 0) (by simp) hx.le).trans (le_rn_of rfl (n := 0) (by simp) hy.le)
  · rw [z]; exact le_rn_of rfl (n := 0) (by simp) hxy
  · have hy : 0 < y := by linarith
    have hlog : Int.log 2 |x| ≤ Int.log 2 |y| :=
      Int.log_mono_right (abs_pos.2 hx.ne') (by rw [abs_of_pos hx, abs_of_pos hy]; linarith)
    rcases hlog.eq_or_lt with h | h
    · exact key hxy h
    · have a : rn x ≤ 2 ^ (Int.log 2 |x| + 1) :=
        rn_le_of rfl (two_zpow_succ_mul _) (by have := hi x; rwa [abs_of_pos hx] at this ⊢)
      have b : 2 ^ Int.log 2 |y| ≤ rn y :=
        le_rn_of rfl (two_zpow_mul _) (by have := lo y hy.ne'; rwa [abs_of_pos hy] at this ⊢)
      have c : (2 : ℝ) ^ (Int.log 2 |x| + 1) ≤ 2 ^ Int.log 2 |y| := zpow_le_zpow_right₀ (by norm_num) (by omega)
      linarith

/-- Integers of at most 53 binary digits times a power of two are not changed. -/
theorem rn_exact {n : ℤ} (h : |n| ≤ 2 ^ 53) : rn n = n := by
  rcases eq_or_ne n 0 with rfl | hn
  · simp [rn]
  rcases h.eq_or_lt with h | h
  · have hk : Int.log 2 |(n : ℝ)| = 53 := by
      have : |(n : ℝ)| = 2 ^ (53 : ℤ) := by exact_mod_cast h
      rw [this]
      simpa using Int.log_zpow (R := ℝ) (b := 2) (by norm_num) 53
    have e : (n : ℝ) * 2 ^ ((52 : ℤ) - 53) = ((n / 2 : ℤ) : ℝ) := by
      have h2 : n = 2 * (n / 2) := by
        rcases abs_eq (by norm_num : (0 : ℤ) ≤ 2 ^ 53) |>.1 h with rfl | rfl <;> norm_num
      have h3 : (n : ℝ) = 2 * ((n / 2 : ℤ) : ℝ) := by exact_mod_cast h2
      rw [h3]; norm_num; ring
    exact le_antisymm (rn_le_of hk e le_rfl) (le_rn_of hk e le_rfl)
  · have hn' : (0 : ℝ) < |(n : ℝ)| := abs_pos.2 (by exact_mod_cast hn)
    have hk : Int.log 2 |(n : ℝ)| < 53 := by
      refine (Int.lt_zpow_iff_log_lt (by norm_num) hn').1 ?_
      have : |(n : ℝ)| < 2 ^ 53 := by exact_mod_cast h
      simpa using this
    obtain ⟨j, hj⟩ := Int.eq_ofNat_of_zero_le (show 0 ≤ 52 - Int.log 2 |(n : ℝ)| by omega)
    have e : (n : ℝ) * 2 ^ ((52 : ℤ) - Int.log 2 |(n : ℝ)|) = ((n * 2 ^ j : ℤ) : ℝ) := by
      rw [hj]; push_cast; simp
    exact le_antisymm (rn_le_of rfl e le_rfl) (le_rn_of rfl e le_rfl)

end Ries.KN
