import Verif.Lemmas.ExponentRangeComptonEnergy
import Verif.Props.ExponentRangeCompton

/-! # Property C155: overflow and underflow in energy-differential Compton cross sections -/

namespace Ries

open KN

variable {u : ℝ} {T : TArith}

/-- C155, Compton scattering, per energy of the scattered photon: the bounds of C198 hold with an arithmetic that is accurate only as long
as a result neither overflows nor underflows, for energies between `2⁻⁶⁰` and `2⁶⁰` MeV. -/
theorem C155_compton_energy (hT : T.AccurateInRange u) (hA : T.AnglesInRange) (hu : 0 ≤ u) {k : PhysConst} (hk : k.InRange)
    (hme : Mag (-20) 20 k.me) {s : KN} (hZ : Mag (-20) 20 s.Z) (hm0 : s.mc2 ≠ 0) (hm : Mag (-20) 20 s.mc2) {E Ep : ℝ} (hE0 : 0 < E)
    (hE : Mag (-60) 60 E) (hEp : Mag (-60) 60 Ep) (h1 : comptonEdge k E ≤ Ep) (h2 : Ep ≤ E)
    (hx : (E / k.me + 1 + k.me / E) * u ≤ 1 / 1000) :
    (T.dEp k s E Ep = .nan ∨ ∃ σ, T.dEp k s E Ep = .fin σ ∧
      |σ - s.dEp k E Ep| ≤ 256 * ((E / k.me + 1 + k.me / E) * u) * |s.dEp k E Ep|) ∧
    (|Real.cos (KN.theta k E Ep)| + (2 * (k.me / E) + 10) * u ≤ 1 → T.dEp k s E Ep ≠ .nan) ∧
    ∀ φ, Mag (-100) 0 (Real.cos φ) → T.dEpdPhi k s E Ep φ = .nan ∨ ∃ σ, T.dEpdPhi k s E Ep φ = .fin σ ∧
      |σ - s.dEpdPhi k E Ep φ| ≤ 256 * ((E / k.me + 1 + k.me / E) * u) * |s.dEpdPhi k E Ep (Real.pi / 2)| := by
  have hxp : 0 < E / k.me := div_pos hE0 k.me_pos
  have hyp : 0 < k.me / E := div_pos k.me_pos hE0
  have hu1 : u ≤ 1 / 1000 := by nlinarith
  have hx' : (E / k.me + 1) * u ≤ 1 / 1000 := by nlinarith
  have hp := (theta_cos k hE0 h1 h2).1
  have hD : 1 ≤ E / Ep := by rw [le_div_iff₀ hp]; linarith
  have hB := TArith.complete_accurate hT hu
  rw [TArith.dEp_same hT hu1 hme hE hEp hD hu hA hk hZ hm hE0 hx']
  obtain ⟨c1, c2⟩ := C198_energy (s := s) hB hu hE0 hm0 h1 h2 hx
  refine ⟨c1, c2, fun φ hφ => ?_⟩
  rw [TArith.dEpdPhi_same hT hu1 hme hE hEp hD hu hA hk hZ hm hE0 hx' hφ]
  exact C198_polarized_energy_partial hB hu hE0 hm0 h1 h2 hx φ

/-! ## Double precision -/

/-- no multiple of `2⁻⁵²` is close to `π` -/
theorem pi_grid (n : ℤ) : 1 / 2 ^ 60 ≤ |(n : ℝ) * 2 ^ (-52 : ℤ) - Real.pi| := by
  have h1 := Real.pi_gt_d20
  have h2 := Real.pi_lt_d20
  have e : (2 : ℝ) ^ (-52 : ℤ) = 1 / 4503599627370496 := by norm_num
  rw [e]
  rcases le_or_gt n 14148475504056880 with h | h
  · have h' : (n : ℝ) ≤ 14148475504056880 := by exact_mod_cast h
    rw [abs_sub_comm]
    refine le_trans ?_ (le_abs_self _)
    norm_num at *
    linarith
  · have h' : (14148475504056881 : ℝ) ≤ n := by exact_mod_cast h
    refine le_trans ?_ (le_abs_self _)
    norm_num at *
    linarith

/-- no multiple of `2⁻⁵³` is close to `π / 2` -/
theorem half_pi_grid (n : ℤ) : 1 / 2 ^ 61 ≤ |(n : ℝ) * 2 ^ (-53 : ℤ) - Real.pi / 2| := by
  have h := pi_grid n
  have e : (n : ℝ) * 2 ^ (-53 : ℤ) - Real.pi / 2 = ((n : ℝ) * 2 ^ (-52 : ℤ) - Real.pi) / 2 := by
    have : (2 : ℝ) ^ (-53 : ℤ) = 2 ^ (-52 : ℤ) / 2 := by norm_num
    rw [this]; ring
  rw [e, abs_div, abs_two]
  norm_num at *
  linarith

/-- the sine of a number of at most `π / 2` is at least half as large -/
theorem half_le_sin {y : ℝ} (h : |y| ≤ Real.pi / 2) : |y| / 2 ≤ |Real.sin y| := by
  have h1 := Real.mul_le_sin (abs_nonneg y) h
  have h2 : |y| / 2 ≤ 2 / Real.pi * |y| := by
    have : 1 / 2 ≤ 2 / Real.pi := by
      rw [div_le_div_iff₀ (by norm_num) Real.pi_pos]
      linarith [Real.pi_le_four]
    nlinarith [abs_nonneg y]
  refine h2.trans (h1.trans ?_)
  rcases abs_choice y with e | e
  · rw [e]; exact le_abs_self _
  · rw [e, Real.sin_neg]; exact neg_le_abs _

theorem exRangeT_angles (c : ℝ) : (exRangeT c).AnglesInRange := by
  intro x hx h
  have hm := TArith.arccos_mag hx h
  have hn : Normal (Real.arccos x) := hm.normal (by norm_num) (by norm_num)
  change Mag (-100) 0 (Real.cos (rnRange c (Real.arccos x))) ∧ Mag (-100) 0 (Real.sin (rnRange c (Real.arccos x)))
  have hr := rnRange_accurate c hn
  have hg := (exRangeKN_accurate c).grid _ hn
  change ∀ e : ℤ, _ → ∃ n : ℤ, rnRange c (Real.arccos x) = _ at hg
  have h0 := Real.arccos_nonneg x
  have hp := Real.arccos_le_pi x
  generalize rnRange c (Real.arccos x) = d at *
  rw [abs_of_nonneg h0] at hr
  have hpi1 := Real.pi_gt_d2
  have hpi2 := Real.pi_lt_d2
  have hm' : Real.arccos x = 0 ∨ 1 / 2 ^ 26 ≤ Real.arccos x := by
    rcases hm with e | ⟨e, -⟩
    · exact .inl e
    · right
      rw [abs_of_nonneg h0] at e
      exact le_trans (by norm_num) e
  generalize Real.arccos x = a at *
  obtain ⟨hr1, hr2⟩ := abs_le.1 hr
  have d0 : 0 ≤ d := by norm_num at hr1; linarith
  have d1 : d ≤ 3.2 := by norm_num at hr2 ⊢; linarith
  have l : (2 : ℝ) ^ (-100 : ℤ) ≤ 1 / 2 ^ 70 := by norm_num
  constructor
  · refine .inr ⟨l.trans ?_, by rw [zpow_zero]; exact Real.abs_cos_le_one d⟩
    rw [← Real.sin_pi_div_two_sub]
    by_cases hd : d ≤ Real.pi
    · refine le_trans ?_ (half_le_sin (by rw [abs_le]; constructor <;> linarith))
      by_cases ha : 1 / 2 ≤ a
      · obtain ⟨n, hn⟩ := hg (-1) (by rw [abs_of_nonneg h0]; norm_num; linarith)
        have := half_pi_grid n
        rw [show (-53 : ℤ) = -1 - 52 by norm_num, ← hn, abs_sub_comm] at this
        norm_num at *
        linarith
      · have : 1 / 4 ≤ |Real.pi / 2 - d| := le_trans (by norm_num at hr2 ⊢; linarith) (le_abs_self _)
        norm_num at *
        linarith
    · rw [show Real.pi / 2 - d = -(d - Real.pi / 2) by ring, Real.sin_neg, abs_neg, Real.sin_sub_pi_div_two, abs_neg]
      have h2 := Real.one_sub_sq_div_two_le_cos (x := d - Real.pi)
      rw [Real.cos_sub_pi] at h2
      refine le_trans ?_ (neg_le_abs _)
      have : (d - Real.pi) ^ 2 ≤ 1 := by nlinarith
      norm_num
      linarith
  · rcases hm' with rfl | ha
    · left
      have : d = 0 := by norm_num at hr1 hr2; linarith
      rw [this, Real.sin_zero]
    · refine .inr ⟨l.trans ?_, by rw [zpow_zero]; exact Real.abs_sin_le_one d⟩
      by_cases h1 : d ≤ Real.pi / 2
      · refine le_trans ?_ (half_le_sin (by rw [abs_of_nonneg d0]; exact h1))
        rw [abs_of_nonneg d0]
        norm_num at *
        linarith
      · rw [← Real.sin_pi_sub]
        refine le_trans ?_ (half_le_sin (by rw [abs_le]; constructor <;> linarith))
        obtain ⟨n, hn⟩ := hg 0 (by rw [abs_of_nonneg h0, zpow_zero]; norm_num at hr2; linarith)
        have := pi_grid n
        rw [show (-52 : ℤ) = 0 - 52 by norm_num, ← hn, abs_sub_comm] at this
        norm_num at *
        linarith

/-- Electrons of iron: photons of 0.511 MeV that lose half of their energy, scattered at 90 degrees. -/
example (c : ℝ) : ∃ σ, (exRangeT c).dEp exConst ⟨26, 0.511⟩ exConst.me (exConst.me / 2) = .fin σ ∧
    |σ - KN.dEp exConst ⟨26, 0.511⟩ exConst.me (exConst.me / 2)| ≤ 1e-13 * |KN.dEp exConst ⟨26, 0.511⟩ exConst.me (exConst.me / 2)| := by
  have hme := exConst.me_pos
  have e1 : exConst.me / exConst.me = 1 := div_self hme.ne'
  obtain ⟨h1, h2, -⟩ := C155_compton_energy (E := exConst.me) (Ep := exConst.me / 2) (exRangeT_accurate c) (exRangeT_angles c) (by norm_num)
    exConst_inRange (Mag.of_bounds (by norm_num [exConst]) (by norm_num [exConst])) (s := ⟨26, 0.511⟩)
    (Mag.of_bounds (by norm_num) (by norm_num)) (by norm_num) (Mag.of_bounds (by norm_num) (by norm_num)) hme
    (Mag.of_bounds (by norm_num [exConst]) (by norm_num [exConst])) (Mag.of_bounds (by norm_num [exConst]) (by norm_num [exConst]))
    (by rw [KN.edge_eq, e1]; gcongr; norm_num) (by linarith) (by rw [e1]; norm_num)
  have hc : Real.cos (KN.theta exConst exConst.me (exConst.me / 2)) = 0 := by
    unfold KN.theta
    have : 1 - (exConst.me / (exConst.me / 2) - 1) * exConst.me / exConst.me = 0 := by field_simp; ring
    rw [this, Real.cos_arccos] <;> norm_num
  rw [hc, e1, abs_zero] at h2
  rcases h1 with h | ⟨σ, h, h'⟩
  · exact absurd h (h2 (by norm_num))
  · refine ⟨σ, h, h'.trans (mul_le_mul_of_nonneg_right ?_ (abs_nonneg _))⟩
    rw [e1]; norm_num

end Ries
