import Verif.Lemmas.ExponentRangeCompton

/-! # Lemmas for C155: the ranges of the intermediate results of the energy-differential Klein-Nishina formula -/

namespace Ries

namespace TArith

variable {T : TArith} {u : ℝ}

section

variable (hT : T.AccurateInRange u) (hu1 : u ≤ 1 / 1000)

include hT hu1

/-- one minus a rounded number does not underflow -/
theorem one_sub_fl {b : ℤ} (hb : b ≤ 1000) (hb0 : 0 ≤ b) {z : ℝ} (hz : Mag (-1000) b z) : Mag (-54) (b + 2) (1 - T.complete.fl z) := by
  have hn : Normal z := hz.normal (by norm_num) (by omega)
  have e : T.complete.fl z = T.fl z := if_pos hn
  have h := hT.fl z hn
  rw [e]
  have g : u * |z| ≤ 1 / 1000 * |z| := mul_le_mul_of_nonneg_right hu1 (abs_nonneg _)
  have hl := KN.Mag.le hz
  have a1 : |T.fl z| ≤ |T.fl z - z| + |z| := by simpa using abs_add_le (T.fl z - z) z
  have p1 : (1 : ℝ) ≤ 2 ^ b := one_le_zpow₀ (by norm_num) hb0
  have p2 : (2 : ℝ) ^ (b + 2) = 4 * 2 ^ b := by rw [zpow_add₀ (by norm_num)]; norm_num; ring
  have a2 := abs_sub (1 : ℝ) (T.fl z)
  rw [abs_one] at a2
  have up : |1 - T.fl z| ≤ 2 ^ (b + 2) := by rw [p2]; linarith
  by_cases hh : |z| < 1 / 4
  · refine .inr ⟨?_, up⟩
    refine le_trans (by norm_num : (2 : ℝ) ^ (-54 : ℤ) ≤ 1 / 2) (le_trans ?_ (le_abs_self _))
    have := le_abs_self (T.fl z)
    linarith
  · refine KN.Mag_of_grid ?_ up
    obtain ⟨n, hn'⟩ := hT.grid z hn (-2) (le_trans (by norm_num) (not_lt.1 hh))
    refine ⟨2 ^ 54 - n, ?_⟩
    rw [hn']
    push_cast
    norm_num
    ring

variable {k : PhysConst} (hme : Mag (-20) 20 k.me) {E Ep : ℝ} (hE : Mag (-60) 60 E) (hEp : Mag (-60) 60 Ep) (h1 : 1 ≤ E / Ep)

include hme hE hEp h1

theorem cosTheta_same : T.cosTheta k E Ep = T.complete.cosTheta k E Ep ∧
    (|T.complete.cosTheta k E Ep| ≤ 1 → Mag (-53) 1 (1 - T.complete.cosTheta k E Ep)) := by
  have hD : Same (-120) 120 (E / Ep) (E / Ep) := .refl ((hE.div hEp).mono (by norm_num) (by norm_num))
  have b1 := same_fl hT hu1 hD (by norm_num) (by norm_num)
  have hn := hD.2.normal (by norm_num) (by norm_num)
  obtain ⟨n, hn'⟩ := hT.grid _ hn 0 (by rw [zpow_zero, abs_of_nonneg (by linarith)]; exact h1)
  have b2 : Same (-52) 122 (T.fl (E / Ep) - 1) (T.complete.fl (E / Ep) - 1) := by
    refine ⟨congrArg (· - 1) b1.1, ?_⟩
    rw [← b1.1]
    refine KN.Mag_of_grid ⟨n - 2 ^ 52, ?_⟩ ?_
    · rw [hn']; push_cast; norm_num; ring
    · have l := KN.Mag.le b1.2
      rw [← b1.1] at l
      have a2 := abs_sub (T.fl (E / Ep)) (1 : ℝ)
      rw [abs_one] at a2
      norm_num at l ⊢
      linarith
  have b3 := same_fl hT hu1 b2 (by norm_num) (by norm_num)
  have b4 := same_fl hT hu1 (b3.mul (.refl hme)) (by norm_num) (by norm_num)
  have b5' := b4.div (.refl hE)
  have b5 := same_fl hT hu1 b5' (by norm_num) (by norm_num)
  have b6 := one_sub_fl hT hu1 (b := 204) (by norm_num) (by norm_num) (b5'.2.mono (by norm_num) (by norm_num))
  have b7 : Same (-54) 206 _ _ := ⟨congrArg (1 - ·) b5.1, b6⟩
  have b8 := same_fl hT hu1 b7 (by norm_num) (by norm_num)
  refine ⟨b8.1, fun hc => ?_⟩
  unfold cosTheta at hc ⊢
  generalize 1 - T.complete.fl (T.complete.fl (T.complete.fl (T.complete.fl (E / Ep) - 1) * k.me) / E) = x at *
  have hnx : Normal x := b6.normal (by norm_num) (by norm_num)
  have e : T.complete.fl x = T.fl x := if_pos hnx
  have h := hT.fl x hnx
  rw [e] at hc ⊢
  have g : u * |x| ≤ 1 / 1000 * |x| := mul_le_mul_of_nonneg_right hu1 (abs_nonneg _)
  have hcc := abs_le.1 hc
  have up : |1 - T.fl x| ≤ 2 ^ (1 : ℤ) := by rw [zpow_one, abs_le]; constructor <;> linarith
  by_cases hh : |x| < 1 / 2
  · refine .inr ⟨?_, up⟩
    refine le_trans (by norm_num : (2 : ℝ) ^ (-53 : ℤ) ≤ 1 / 4) (le_trans ?_ (le_abs_self _))
    have a1 : |T.fl x| ≤ |T.fl x - x| + |x| := by simpa using abs_add_le (T.fl x - x) x
    have := le_abs_self (T.fl x)
    linarith
  · refine KN.Mag_of_grid ?_ up
    obtain ⟨n, hn'⟩ := hT.grid x hnx (-1) (le_trans (by norm_num) (not_lt.1 hh))
    refine ⟨2 ^ 53 - n, ?_⟩
    rw [hn']
    push_cast
    norm_num
    ring

omit hT hu1 hme hE hEp h1 in
theorem arccos_mag {c : ℝ} (hc : |c| ≤ 1) (h : Mag (-53) 1 (1 - c)) : Mag (-26) 2 (Real.arccos c) := by
  have hcc := abs_le.1 hc
  rcases h with h | ⟨h, -⟩
  · left
    rw [show c = 1 by linarith, Real.arccos_one]
  · rw [abs_of_nonneg (by linarith)] at h
    have h2 := Real.one_sub_sq_div_two_le_cos (x := Real.arccos c)
    rw [Real.cos_arccos hcc.1 hcc.2] at h2
    have h0 := Real.arccos_nonneg c
    refine Mag.of_bounds ?_ ?_
    · refine (sq_le_sq₀ (by positivity) h0).1 ?_
      norm_num at h ⊢
      linarith
    · have := Real.arccos_le_pi c
      have := Real.pi_le_four
      norm_num
      linarith

omit hT hu1 hme hE hEp h1 in
theorem arccos_same {c : ℝ} (hc : |c| ≤ 1) (h : Mag (-53) 1 (1 - c)) : T.arccos c = T.complete.arccos c :=
  (if_pos ((arccos_mag hc h).normal (by norm_num) (by norm_num))).symm

variable (hu : 0 ≤ u) (hA : T.AnglesInRange) (hk : k.InRange) {s : KN} (hZ : Mag (-20) 20 s.Z) (hm : Mag (-20) 20 s.mc2) (hE0 : 0 < E)
  (hx : (E / k.me + 1) * u ≤ 1 / 1000)

include hu hA hk hZ hm hE0 hx

theorem dEp_same : T.dEp k s E Ep = T.complete.dEp k s E Ep := by
  obtain ⟨e, h⟩ := cosTheta_same hT hu1 hme hE hEp h1
  unfold dEp theta
  rw [e]
  by_cases hc : |T.complete.cosTheta k E Ep| ≤ 1
  · rw [if_pos hc, if_pos hc, ← arccos_same hc (h hc)]
    obtain ⟨a1, a2⟩ := hA _ hc (h hc)
    have b1 := unpol_same hT hu hu1 hk hme hZ hm hE0 hE a1 a2 hx
    have b2 := same_fl hT hu1 (b1.mul (.refl hme)) (by norm_num) (by norm_num)
    have b3 := same_fl hT hu1 ((Same.refl hEp).mul (.refl hEp)) (by norm_num) (by norm_num)
    exact congrArg Fl.fin (same_fl hT hu1 (b2.div b3) (by norm_num) (by norm_num)).1
  · rw [if_neg hc, if_neg hc]

theorem dEpdPhi_same {φ : ℝ} (hφ : Mag (-100) 0 (Real.cos φ)) : T.dEpdPhi k s E Ep φ = T.complete.dEpdPhi k s E Ep φ := by
  obtain ⟨e, h⟩ := cosTheta_same hT hu1 hme hE hEp h1
  unfold dEpdPhi theta
  rw [e]
  by_cases hc : |T.complete.cosTheta k E Ep| ≤ 1
  · rw [if_pos hc, if_pos hc, ← arccos_same hc (h hc)]
    obtain ⟨a1, a2⟩ := hA _ hc (h hc)
    have b1 := pol_same hT hu hu1 hk hme hZ hm hE0 hE a1 a2 hx hφ
    have b2 := same_fl hT hu1 (b1.mul (.refl hme)) (by norm_num) (by norm_num)
    have b3 := same_fl hT hu1 ((Same.refl hEp).mul (.refl hEp)) (by norm_num) (by norm_num)
    exact congrArg Fl.fin (same_fl hT hu1 (b2.div b3) (by norm_num) (by norm_num)).1
  · rw [if_neg hc, if_neg hc]

end

end TArith

end Ries
