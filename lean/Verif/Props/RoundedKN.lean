import Verif.Lemmas.RoundedKN
import Verif.Props.KleinNishina

/-!
# C84: the computed total Compton cross section
-/

open Real

namespace Ries.KN

/-- C84 is false of the code: in double precision with rounding to nearest, the computed total cross section is negative for
energies of about 1.95 eV (red light; electrons), where the exact value is positive. The rounding error of `1 + 2 x` alone
exceeds the value of the bracket. -/
theorem C84_refuted {A : Arith} (hA : A.Double) (k : PhysConst) (s : KN) (hZ : 0 < s.Z) (hm : 0 < s.mc2) (E : ℝ)
    (h1 : 1 / 2 ^ 18 + 1.01 / 2 ^ 54 ≤ E / s.mc2) (h2 : E / s.mc2 ≤ 1 / 2 ^ 18 + 1.2 / 2 ^ 54) :
    totalR A k s E < 0 ∧ 0 < s.total k E := by
  have hacc := hA.toAccurate
  have hu0 : (0 : ℝ) ≤ 1 / 2 ^ 53 := by norm_num
  have hu1 : (1 : ℝ) / 2 ^ 53 ≤ 1e-4 := by norm_num
  have hu2 : (1 : ℝ) / 2 ^ 53 < 1 := by norm_num
  have hypos : 0 < E / s.mc2 := lt_of_lt_of_le (by norm_num) h1
  have hE : 0 < E := by
    by_contra hc
    push Not at hc
    have := div_nonpos_of_nonpos_of_nonneg hc hm.le
    linarith
  refine ⟨?_, (C44_total k s hZ hm).1 E hE⟩
  have hx : Rel (1 / 2 ^ 53) 1 (A.fl (E / s.mc2)) (E / s.mc2) := (Rel.refl (n := 0) hu0 hu2 _).round hacc.fl hu0 hu2
  unfold totalR
  simp only
  generalize E / s.mc2 = y at h1 h2 hypos hx ⊢
  generalize A.fl y = x at hx ⊢
  have hfront := (front_rel hacc hu0 (by norm_num) k s hypos hx).pos hu2
    (mul_pos (mul_pos pi_pos (scale_pos k s hZ hm)) (zpow_pos hypos _))
  have hc := arg_double hA hx h1 h2
  have hy1 : y ≤ 0.01 := h2.trans (by norm_num)
  have hB := termB_neg hacc hu0 hu1 hypos hy1 hx hc (by norm_num)
    (ℓ := (1 / 2 ^ 17 + 1 / 2 ^ 52) - (1 / 2 ^ 17 + 1 / 2 ^ 52) ^ 2 / 2 + (1 / 2 ^ 17 + 1 / 2 ^ 52) ^ 3 / 3 -
      1.01 * (1 / 2 ^ 17 + 1 / 2 ^ 52) ^ 4) (by norm_num) (log_lower (by norm_num) (by norm_num))
    (τ := 2 + 2 * (1 / 2 ^ 18 + 1.01 / 2 ^ 54) - (1 / 2 ^ 18 + 1.2 / 2 ^ 54) ^ 2 - 10 * (1 / 2 ^ 53)) (by norm_num) (by
      have hy2 : y ^ 2 ≤ (1 / 2 ^ 18 + 1.2 / 2 ^ 54) ^ 2 := pow_le_pow_left₀ hypos.le h2 2
      have := mul_le_mul_of_nonneg_left h1 (by norm_num : (0 : ℝ) ≤ 2)
      gcongr)
  have hAe := (termA_rel hacc.fl hu0 hu2 hypos hx).abs_le hu0 (by norm_num)
  rw [abs_of_pos (exA_pos hypos)] at hAe
  have hAup : termA A x ≤ exA y * (1 + 20 * (1 / 2 ^ 53)) := by
    have h3 := (_root_.abs_le.1 hAe).2
    have h4 : 1.01 * ((19 : ℕ) : ℝ) * (1 / 2 ^ 53) * exA y ≤ 20 * (1 / 2 ^ 53) * exA y :=
      mul_le_mul_of_nonneg_right (by norm_num) (exA_pos hypos).le
    linarith
  have hsum : termA A x + termB A x < 0 := by
    have h9 := mul_le_mul_of_nonneg_right (exA_mono (by norm_num) h1 h2) (show (0 : ℝ) ≤ 1 + 20 * (1 / 2 ^ 53) by norm_num)
    refine lt_of_le_of_lt (add_le_add (hAup.trans h9) hB) ?_
    norm_num
  have neg : ∀ z, z < 0 → A.fl z < 0 := by
    intro z hz
    have h3 := (_root_.abs_le.1 (hacc.fl z)).2
    rw [abs_of_neg hz] at h3
    have : (1 : ℝ) / 2 ^ 53 * -z < 1 * -z := mul_lt_mul_of_pos_right hu2 (by linarith)
    linarith
  exact neg _ (mul_neg_of_pos_of_neg hfront (neg _ hsum))

/-- Rounding to nearest meets the requirements; an energy that is affected. -/
example : rnArith.Double ∧ (1 : ℝ) / 2 ^ 18 + 1.01 / 2 ^ 54 ≤ (1 / 2 ^ 18 + 1.1 / 2 ^ 54) / 1 ∧
    ((1 : ℝ) / 2 ^ 18 + 1.1 / 2 ^ 54) / 1 ≤ 1 / 2 ^ 18 + 1.2 / 2 ^ 54 :=
  ⟨rnArith_double, by norm_num, by norm_num⟩

/-- For every mass there is an energy at which the relative error is larger than 1. -/
theorem C84_not_accurate {A : Arith} (hA : A.Double) (k : PhysConst) (s : KN) (hZ : 0 < s.Z) (hm : 0 < s.mc2) :
    ∃ E, 0 < E ∧ s.total k E < |totalR A k s E - s.total k E| := by
  have e : s.mc2 * (1 / 2 ^ 18 + 1.1 / 2 ^ 54) / s.mc2 = 1 / 2 ^ 18 + 1.1 / 2 ^ 54 := by field_simp
  obtain ⟨h1, h2⟩ := C84_refuted hA k s hZ hm (s.mc2 * (1 / 2 ^ 18 + 1.1 / 2 ^ 54)) (by rw [e]; norm_num) (by rw [e]; norm_num)
  refine ⟨s.mc2 * (1 / 2 ^ 18 + 1.1 / 2 ^ 54), by positivity, ?_⟩
  rw [abs_of_neg (by linarith)]
  linarith

/-- C84, the part that holds: with a relative error of at most `u ≤ 10⁻⁴` per operation, the relative error of the computed total
cross section is at most `150 u (1 + mc²/E)³ (1 + ln(1 + 2 E/mc²))`: close to the precision of the arithmetic for energies from the
mass on, and growing with the third power of `mc²/E` below. -/
theorem C84_partial {u : ℝ} {A : Arith} (hA : A.Accurate u) (hu : 0 ≤ u) (hu1 : u ≤ 1e-4) (k : PhysConst) (s : KN) (hZ : 0 < s.Z)
    (hm : 0 < s.mc2) (E : ℝ) (hE : 0 < E) :
    |totalR A k s E - s.total k E| ≤ 150 * u * (1 + s.mc2 / E) ^ 3 * (1 + log (1 + 2 * E / s.mc2)) * s.total k E := by
  have hy0 : 0 < E / s.mc2 := div_pos hE hm
  have e1 : s.mc2 / E = 1 / (E / s.mc2) := by field_simp
  have e2 : 2 * E / s.mc2 = 2 * (E / s.mc2) := by ring
  have hT : s.total k E = π * s.scale k * (E / s.mc2) ^ (-3 : ℤ) *
      (exA (E / s.mc2) + ((E / s.mc2 - 2) * (E / s.mc2) - 2) * log (1 + 2 * (E / s.mc2))) := rfl
  have hx : Rel u 1 (A.fl (E / s.mc2)) (E / s.mc2) := (Rel.refl (n := 0) hu (by linarith) _).round hA.fl hu (by linarith)
  rw [e1, e2, hT]
  unfold totalR
  simp only
  generalize E / s.mc2 = y at hy0 hx ⊢
  generalize A.fl y = x at hx ⊢
  have hP := (front_rel hA hu (by linarith) k s hy0 hx).abs_le hu (by push_cast; linarith)
  have hP0 : 0 < π * s.scale k * y ^ (-3 : ℤ) := mul_pos (mul_pos pi_pos (scale_pos k s hZ hm)) (zpow_pos hy0 _)
  have hb := bracket_err hA hu hu1 hy0 hx
  have hlow := bracket_lower hy0
  have hl0 : 0 ≤ log (1 + 2 * y) := log_nonneg (by linarith)
  have hq : 0 < y ^ 3 / (1 + 2 * y) := by positivity
  generalize A.fl (A.fl (A.fl π * scaleR A k s) * A.cb x) = P at hP ⊢
  generalize π * s.scale k * y ^ (-3 : ℤ) = P0 at hP hP0 ⊢
  generalize A.fl (termA A x + termB A x) = B at hb ⊢
  generalize exA y + ((y - 2) * y - 2) * log (1 + 2 * y) = b at hb hlow ⊢
  generalize log (1 + 2 * y) = ℓ at hb hl0 ⊢
  have hb0 : 0 < b := by linarith
  rw [abs_of_pos hP0] at hP
  push_cast at hP
  obtain ⟨W, hW⟩ : ∃ W, W = (1 + 1 / y) ^ 3 * (1 + ℓ) := ⟨_, rfl⟩
  obtain ⟨M, hM⟩ : ∃ M, M = (1 + y) ^ 2 * (1 + ℓ) := ⟨_, rfl⟩
  have hW1 : 1 ≤ W := by
    rw [hW]
    have h3 : (1 : ℝ) ≤ (1 + 1 / y) ^ 3 := one_le_pow₀ (by have : 0 < 1 / y := by positivity
                                                           linarith)
    nlinarith
  have hM0 : 0 < M := by rw [hM]; positivity
  have hMW : M ≤ 9 / 8 * W * b := by
    have h3 : M = (y ^ 3 / (1 + 2 * y)) * ((1 + y) ^ 2 * (1 + 2 * y) / y ^ 3 * (1 + ℓ)) := by rw [hM]; field_simp
    have h4 : (1 + y) ^ 2 * (1 + 2 * y) / y ^ 3 * (1 + ℓ) ≤ 2 * W := by
      rw [hW, ← mul_assoc]
      refine mul_le_mul_of_nonneg_right ?_ (by linarith)
      have e3 : 2 * (1 + 1 / y) ^ 3 = 2 * (1 + y) ^ 3 / y ^ 3 := by field_simp; ring
      rw [e3]
      refine div_le_div_of_nonneg_right ?_ (by positivity)
      have : 0 < (1 + y) ^ 2 := by positivity
      nlinarith
    rw [h3]
    calc y ^ 3 / (1 + 2 * y) * ((1 + y) ^ 2 * (1 + 2 * y) / y ^ 3 * (1 + ℓ)) ≤ (9 / 16 * b) * (2 * W) :=
          mul_le_mul hlow h4 (by positivity) (by positivity)
      _ = _ := by ring
  rw [← hM] at hb
  have eW : 150 * u * (1 + 1 / y) ^ 3 * (1 + ℓ) * (P0 * b) = 150 * u * W * (P0 * b) := by rw [hW]; ring
  rw [eW]
  have Pab : |P| ≤ 1.002 * P0 := by
    have : |P| ≤ |P - P0| + |P0| := by
      have := abs_add_le (P - P0) P0
      simpa using this
    rw [abs_of_pos hP0] at this
    nlinarith
  have Bab : |B| ≤ b + 108 * u * M := by
    have : |B| ≤ |B - b| + |b| := by
      have := abs_add_le (B - b) b
      simpa using this
    rw [abs_of_pos hb0] at this
    linarith
  have r1 : |A.fl (P * B) - P * B| ≤ u * (1.002 * P0 * (b + 108 * u * M)) := by
    refine (hA.fl _).trans (mul_le_mul_of_nonneg_left ?_ hu)
    rw [abs_mul]; exact mul_le_mul Pab Bab (abs_nonneg _) (by positivity)
  have r2 : |P * B - P0 * b| ≤ 1.002 * P0 * (108 * u * M) + (1.01 * 17 * u * P0) * b := by
    have e4 : P * B - P0 * b = P * (B - b) + (P - P0) * b := by ring
    rw [e4]
    refine (abs_add_le _ _).trans (add_le_add ?_ ?_)
    · rw [abs_mul]; exact mul_le_mul Pab hb (abs_nonneg _) (by positivity)
    · rw [abs_mul, abs_of_pos hb0]; exact mul_le_mul_of_nonneg_right hP hb0.le
  have r3 : |A.fl (P * B) - P0 * b| ≤ |A.fl (P * B) - P * B| + |P * B - P0 * b| := by
    have := abs_add_le (A.fl (P * B) - P * B) (P * B - P0 * b)
    simpa using this
  have hbW : b ≤ W * b := by nlinarith
  have uP : 0 ≤ u * P0 := by positivity
  calc |A.fl (P * B) - P0 * b| ≤ u * (1.002 * P0 * (b + 108 * u * M)) + (1.002 * P0 * (108 * u * M) + (1.01 * 17 * u * P0) * b) := by linarith
    _ = (u * P0) * (18.172 * b + (1.002 * 108 + 1.002 * 108 * u) * M) := by ring
    _ ≤ (u * P0) * (18.172 * (W * b) + 108.3 * (9 / 8 * W * b)) := by
        refine mul_le_mul_of_nonneg_left ?_ uP
        have : (1.002 * 108 + 1.002 * 108 * u) * M ≤ 108.3 * (9 / 8 * W * b) :=
          mul_le_mul (by linarith) hMW hM0.le (by norm_num)
        linarith
    _ ≤ (u * P0) * (150 * (W * b)) := by
        refine mul_le_mul_of_nonneg_left ?_ uP
        nlinarith
    _ = _ := by ring

/-- In double precision, the error is below 1e-12 at the electron mass, and below 4e-6 at 1 keV. -/
example : 150 * ((1 : ℝ) / 2 ^ 53) * (1 + 1) ^ 3 * (1 + 2) ≤ 1e-12 ∧
    150 * ((1 : ℝ) / 2 ^ 53) * (1 + 511) ^ 3 * (1 + 2 / 511) ≤ 4e-6 := by norm_num

end Ries.KN
