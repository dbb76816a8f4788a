import Verif.Lemmas.ExponentRangeCompton
import Verif.Lemmas.RnMono
import Verif.Props.ExponentRange
import Verif.Props.RoundedComptonAngles

/-! # Property C155: overflow and underflow in differential Compton cross sections -/

namespace Ries

open KN

variable {u : ℝ} {T : TArith}

/-- C155, unpolarized Compton scattering: the error bounds of C198 for the cross sections per solid angle and per polar angle hold with
an arithmetic that is accurate only as long as a result neither overflows nor underflows, for energies between `2⁻⁶⁰` and `2⁶⁰` MeV and
angles whose sine and cosine are zero or at least `2⁻¹⁰⁰`. -/
theorem C155_compton_angle (hT : T.AccurateInRange u) (hu : 0 ≤ u) {k : PhysConst} (hk : k.InRange) (hme : Mag (-20) 20 k.me) {s : KN}
    (hZ : Mag (-20) 20 s.Z) (hm0 : s.mc2 ≠ 0) (hm : Mag (-20) 20 s.mc2) {E θ : ℝ} (hE0 : 0 < E) (hE : Mag (-60) 60 E)
    (hc : Mag (-100) 0 (Real.cos θ)) (hs : Mag (-100) 0 (Real.sin θ)) (hx : (E / k.me + 1) * u ≤ 1 / 1000) :
    |T.dOmegaUnpol k s E θ - s.dOmegaUnpol k E θ| ≤ 94 * ((E / k.me + 1) * u) * |s.dOmegaUnpol k E θ| ∧
    |T.dTheta k s E θ - s.dTheta k E θ| ≤ 94 * ((E / k.me + 1) * u) * |s.dTheta k E θ| := by
  have hxp : 0 < E / k.me := div_pos hE0 k.me_pos
  have hu1 : u ≤ 1 / 1000 := by nlinarith
  rw [(TArith.unpol_same hT hu hu1 hk hme hZ hm hE0 hE hc hs hx).1, TArith.dTheta_same hT hu hu1 hk hme hZ hm hE0 hE hc hs hx]
  exact C198_angle (TArith.complete_accurate hT hu) hu hE0 hm0 hx θ

/-- C155, polarized Compton scattering: the bound of C198 for the absolute error, likewise. -/
theorem C155_compton_polarized (hT : T.AccurateInRange u) (hu : 0 ≤ u) {k : PhysConst} (hk : k.InRange) (hme : Mag (-20) 20 k.me) {s : KN}
    (hZ : Mag (-20) 20 s.Z) (hm0 : s.mc2 ≠ 0) (hm : Mag (-20) 20 s.mc2) {E θ φ : ℝ} (hE0 : 0 < E) (hE : Mag (-60) 60 E)
    (hc : Mag (-100) 0 (Real.cos θ)) (hs : Mag (-100) 0 (Real.sin θ)) (hφ : Mag (-100) 0 (Real.cos φ))
    (hx : (E / k.me + 1) * u ≤ 1 / 1000) :
    |T.dOmega k s E θ φ - s.dOmega k E θ φ| ≤ 88 * ((E / k.me + 1) * u) * |s.dOmega k E θ (Real.pi / 2)| := by
  have hxp : 0 < E / k.me := div_pos hE0 k.me_pos
  have hu1 : u ≤ 1 / 1000 := by nlinarith
  rw [(TArith.pol_same hT hu hu1 hk hme hZ hm hE0 hE hc hs hx hφ).1]
  exact C198_polarized_partial (TArith.complete_accurate hT hu) hu hE0 hm0 hx θ φ

/-- Double precision with gradual underflow and correctly rounded trigonometric functions. -/
noncomputable def exRangeT (c : ℝ) : TArith where
  toRArith := exRange c
  sin x := rnRange c (Real.sin x)
  cos x := rn (Real.cos x)
  arccos x := rnRange c (Real.arccos x)

theorem rn_one' : rn 1 = 1 := by exact_mod_cast rn_exact (n := 1) (by norm_num)

theorem rn_neg_one' : rn (-1) = -1 := by exact_mod_cast rn_exact (n := -1) (by norm_num)

theorem rn_half : rn (1 / 2) = 1 / 2 := by
  rw [rn_val (-1) (2 ^ 52)] <;> norm_num

theorem exRangeT_accurate (c : ℝ) : (exRangeT c).AccurateInRange (1 / 2 ^ 53) where
  toAccurateInRange := exRange_accurate c
  sin x h := (rnRange_accurate c h).trans (mul_le_mul_of_nonneg_right (by norm_num) (abs_nonneg _))
  cos x _ := (rn_rounding _).trans (mul_le_mul_of_nonneg_right (by norm_num) (abs_nonneg _))
  arccos x _ h := (rnRange_accurate c h).trans (mul_le_mul_of_nonneg_right (by norm_num) (abs_nonneg _))
  grid := (exRangeKN_accurate c).grid
  cosOne x := by
    have h1 := rn_monotone (Real.cos_le_one x)
    have h2 := rn_monotone (Real.neg_one_le_cos x)
    rw [rn_one'] at h1
    rw [rn_neg_one'] at h2
    exact abs_le.2 ⟨h2, h1⟩
  cosGrid x h := by
    change 1 / 2 ≤ rn (Real.cos x) at h
    change ∃ n : ℤ, rn (Real.cos x) = n / 2 ^ 53
    rcases le_total (1 / 2) (Real.cos x) with hc | hc
    · have h0 : 0 < |Real.cos x| := abs_pos.2 (by linarith)
      have hl : -1 ≤ Int.log 2 |Real.cos x| := (Int.zpow_le_iff_le_log (by norm_num) h0).1 (by
        rw [abs_of_pos (by linarith)]; norm_num; linarith)
      obtain ⟨n, hn⟩ := grid_mono (c := Int.log 2 |Real.cos x| - 52) (c' := -53) (x := rn (Real.cos x)) (by omega)
        ⟨round (Real.cos x * 2 ^ (52 - Int.log 2 |Real.cos x|)), by
          rw [rn, show Int.log 2 |Real.cos x| - 52 = -(52 - Int.log 2 |Real.cos x|) by ring, zpow_neg, div_eq_mul_inv]⟩
      exact ⟨n, by rw [hn, zpow_neg, div_eq_mul_inv]; norm_cast⟩
    · have h1 := rn_monotone hc
      rw [rn_half] at h1
      exact ⟨2 ^ 52, by rw [le_antisymm h1 h]; norm_num⟩

/-- Electrons of iron, 1 MeV, an angle of 1 rad. -/
example (c : ℝ) : |(exRangeT c).dTheta exConst ⟨26, 0.511⟩ 1 1 - KN.dTheta exConst ⟨26, 0.511⟩ 1 1| ≤
    5e-14 * |KN.dTheta exConst ⟨26, 0.511⟩ 1 1| := by
  have hc : (1 : ℝ) / 2 ≤ Real.cos 1 := by have := Real.one_sub_sq_div_two_le_cos (x := 1); norm_num at this ⊢; linarith
  have hs : (3 : ℝ) / 4 ≤ Real.sin 1 := by
    have := Real.sin_gt_sub_cube (x := 1) (by norm_num); norm_num at this ⊢; linarith
  have l : (2 : ℝ) ^ (-100 : ℤ) ≤ 1 / 2 := by norm_num
  refine (C155_compton_angle (exRangeT_accurate c) (by norm_num) exConst_inRange
    (Mag.of_bounds (by norm_num [exConst]) (by norm_num [exConst])) (s := ⟨26, 0.511⟩)
    (Mag.of_bounds (by norm_num) (by norm_num)) (by norm_num) (Mag.of_bounds (by norm_num) (by norm_num)) (by norm_num : (0 : ℝ) < 1)
    (Mag.of_bounds (by norm_num) (by norm_num)) (Mag.of_bounds (l.trans hc) (by rw [zpow_zero]; exact Real.cos_le_one 1))
    (Mag.of_bounds (l.trans (by linarith)) (by rw [zpow_zero]; exact Real.sin_le_one 1))
    (by norm_num [exConst])).2.trans (mul_le_mul_of_nonneg_right (by norm_num [exConst]) (abs_nonneg _))

/-- The same photon, scattered at 1 rad in the plane of polarization. -/
example (c : ℝ) : |(exRangeT c).dOmega exConst ⟨26, 0.511⟩ 1 1 0 - KN.dOmega exConst ⟨26, 0.511⟩ 1 1 0| ≤
    5e-14 * |KN.dOmega exConst ⟨26, 0.511⟩ 1 1 (Real.pi / 2)| := by
  have hc : (1 : ℝ) / 2 ≤ Real.cos 1 := by have := Real.one_sub_sq_div_two_le_cos (x := 1); norm_num at this ⊢; linarith
  have hs : (3 : ℝ) / 4 ≤ Real.sin 1 := by
    have := Real.sin_gt_sub_cube (x := 1) (by norm_num); norm_num at this ⊢; linarith
  have l : (2 : ℝ) ^ (-100 : ℤ) ≤ 1 / 2 := by norm_num
  refine (C155_compton_polarized (exRangeT_accurate c) (by norm_num) exConst_inRange
    (Mag.of_bounds (by norm_num [exConst]) (by norm_num [exConst])) (s := ⟨26, 0.511⟩)
    (Mag.of_bounds (by norm_num) (by norm_num)) (by norm_num) (Mag.of_bounds (by norm_num) (by norm_num)) (by norm_num : (0 : ℝ) < 1)
    (Mag.of_bounds (by norm_num) (by norm_num)) (Mag.of_bounds (l.trans hc) (by rw [zpow_zero]; exact Real.cos_le_one 1))
    (Mag.of_bounds (l.trans (by linarith)) (by rw [zpow_zero]; exact Real.sin_le_one 1))
    (by rw [Real.cos_zero]; exact Mag.of_bounds (by norm_num) (by norm_num))
    (by norm_num [exConst])).trans (mul_le_mul_of_nonneg_right (by norm_num [exConst]) (abs_nonneg _))

end Ries
