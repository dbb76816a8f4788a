import Verif.Lemmas.RoundedPVErr
import Verif.Props.RoundedReso

/-! # Property C125: rounding errors of pseudo-Voigt cross sections -/

namespace Ries

open KN

variable {u : ℝ} {A : PArith}

/-- C125 near the resonance: evaluated with rounded operations, from the level energies, partial widths, mass and temperature to the
value at an energy, the pseudo-Voigt cross section has a small relative error. `Γ` is the width parameter of the profile (attribute
`Gamma`); the distance from the resonance enters by `4 log 2 ((E - E_r) / Γ)²`, and the size of `Γ` by `m ≥ |log Γ|`, because the
exponent 0.2 of the fifth root is rounded. -/
theorem C125_near (hA : A.Accurate u) (hu : 0 ≤ u) {k : PhysConst} {init inter : Level} {amu T w Γ : ℝ} {final : Option Level} {r : Reso}
    {m : ℕ} (hr : mkPseudoVoigt k init inter amu T final = .ok r) (hl : inter.Physical) (ha : 0 < amu) (hT : 0 < T)
    (hE : init.exc < inter.exc) (hex : A.fl (inter.exc - init.exc) = inter.exc - init.exc) (hw : inter.width = .ok w)
    (hΓ : Γ = (mkPV r.er w (dopplerWidth k amu T r.er)).bigGamma) (hm : |Real.log Γ| ≤ m) (E : ℝ)
    (hN : (50 * inter.channels + 26 * m + 670 + 2.2 * (inter.channels + m + 31) * (4 * Real.log 2 * ((E - r.er) / Γ) ^ 2) : ℝ) * u ≤ 1 / 200) :
    ∃ σ σ', r.call E = .ok (.fin σ) ∧ A.pseudoVoigt k init inter amu T final E = .ok (.fin σ') ∧
      |σ' - σ| ≤ (50 * inter.channels + 26 * m + 670 + 2.2 * (inter.channels + m + 31) * (4 * Real.log 2 * ((E - r.er) / Γ) ^ 2)) * u * |σ| := by
  have hNn : (0 : ℝ) ≤ inter.channels := Nat.cast_nonneg _
  have hmn : (0 : ℝ) ≤ m := Nat.cast_nonneg _
  have hlog := Real.log_pos one_lt_two
  have ht0 : 0 ≤ 4 * Real.log 2 * ((E - r.er) / Γ) ^ 2 := by positivity
  have hτ0 : 0 ≤ (inter.channels + m + 31) * (4 * Real.log 2 * ((E - r.er) / Γ) ^ 2) * u := by positivity
  have hN1 : (50 * inter.channels + 26 * m + 670 : ℝ) * u ≤ 1 / 200 := by linarith
  obtain ⟨η, I, g, L, hη, hv, hgL, hcall, H⟩ := PArith.eval_err hA hu hr hl ha hT hE hex hw hΓ hm hN1
  obtain ⟨δ, σ', G, P, hδ, hσ', hG, hP, herr⟩ := H E
  refine ⟨_, σ', hcall E, hσ', herr.trans ?_⟩
  obtain ⟨hg0, hL0, hle, -⟩ := hgL E
  generalize 4 * Real.log 2 * ((E - r.er) / Γ) ^ 2 = t at *
  generalize (inter.channels : ℝ) = N at *
  have hp : 0 ≤ (1 - η) * g E + η * L E := add_nonneg (mul_nonneg hv hg0) (mul_nonneg hη hL0)
  have hδ2 : |δ| ≤ 1.01 * ((2 * N + 2 * m + 62) * u * t) := hδ.trans (le_of_eq (by ring))
  have hsum : 50 * (N * u) + 26 * (m * u) + 670 * u + 1.1 * ((2 * N + 2 * m + 62) * u * t) ≤ 1 / 200 := le_trans (le_of_eq (by ring)) hN
  have ha0 : 0 ≤ N * u := by positivity
  have hb0 : 0 ≤ m * u := by positivity
  have hτ : 0 ≤ (2 * N + 2 * m + 62) * u * t := by positivity
  have hδ1 : |δ| ≤ 1 / 200 := by linarith
  have h2 := Real.abs_exp_sub_one_sub_id_le (x := δ) (by linarith)
  have hsq : δ ^ 2 ≤ 1 / 200 * |δ| := by
    rw [← sq_abs]; nlinarith [abs_nonneg δ]
  have h3 : |Real.exp δ - 1| ≤ 1.005 * |δ| := by
    have : Real.exp δ - 1 = (Real.exp δ - 1 - δ) + δ := by ring
    rw [this]
    have := abs_add_le (Real.exp δ - 1 - δ) δ
    linarith
  have h4 : Real.exp δ ≤ 1.00503 := by
    have := (_root_.abs_le.1 h3).2
    linarith
  have hγ : 1.01 * (N * u + m * u + 36 * u) * Real.exp δ + |Real.exp δ - 1| ≤
      1.0152 * (N * u + m * u + 36 * u) + 1.0151 * ((2 * N + 2 * m + 62) * u * t) := by
    have : 1.01 * (N * u + m * u + 36 * u) * Real.exp δ ≤ 1.01 * (N * u + m * u + 36 * u) * 1.00503 := by gcongr
    linarith
  rw [hG] at hP
  have key := near_bound hu ha0 hb0 hτ hv hη hg0 hL0 hle (by positivity) hγ hsum hP
  rw [abs_mul, abs_of_nonneg hp]
  calc _ ≤ |I| * ((50 * (N * u) + 26 * (m * u) + 670 * u + 1.1 * ((2 * N + 2 * m + 62) * u * t)) * ((1 - η) * g E + η * L E)) :=
      mul_le_mul_of_nonneg_left key (abs_nonneg _)
    _ = _ := by ring

/-- C125 at every energy: far from the resonance the relative error of the Gauss component is large (C95), but this component is small
there. The error is bounded by a multiple of the value at this energy plus one of the maximum. -/
theorem C125_everywhere (hA : A.Accurate u) (hu : 0 ≤ u) {k : PhysConst} {init inter : Level} {amu T w Γ : ℝ} {final : Option Level}
    {r : Reso} {m : ℕ} (hr : mkPseudoVoigt k init inter amu T final = .ok r) (hl : inter.Physical) (ha : 0 < amu) (hT : 0 < T)
    (hE : init.exc < inter.exc) (hex : A.fl (inter.exc - init.exc) = inter.exc - init.exc) (hw : inter.width = .ok w)
    (hΓ : Γ = (mkPV r.er w (dopplerWidth k amu T r.er)).bigGamma) (hm : |Real.log Γ| ≤ m)
    (hN : (50 * inter.channels + 26 * m + 670 : ℝ) * u ≤ 1 / 200) :
    ∃ σ₀, r.call r.er = .ok (.fin σ₀) ∧ ∀ E, ∃ σ σ', r.call E = .ok (.fin σ) ∧
      A.pseudoVoigt k init inter amu T final E = .ok (.fin σ') ∧
      |σ' - σ| ≤ (50 * inter.channels + 26 * m + 670) * u * |σ| + (4 * inter.channels + 4 * m + 115) * u * |σ₀| := by
  have hNn : (0 : ℝ) ≤ inter.channels := Nat.cast_nonneg _
  have hmn : (0 : ℝ) ≤ m := Nat.cast_nonneg _
  have hlog := Real.log_pos one_lt_two
  obtain ⟨η, I, g, L, hη, hv, hgL, hcall, H⟩ := PArith.eval_err hA hu hr hl ha hT hE hex hw hΓ hm hN
  refine ⟨_, hcall r.er, fun E => ?_⟩
  obtain ⟨δ, σ', G, P, hδ, hσ', hG, hP, herr⟩ := H E
  refine ⟨_, σ', hcall E, hσ', herr.trans ?_⟩
  obtain ⟨hg, hL, hle, hgE⟩ := hgL E
  obtain ⟨hg0, hL0, hle0, -⟩ := hgL r.er
  have ht0 : 0 ≤ 4 * Real.log 2 * ((E - r.er) / Γ) ^ 2 := by positivity
  generalize 4 * Real.log 2 * ((E - r.er) / Γ) ^ 2 = t at *
  generalize (inter.channels : ℝ) = N at *
  have ha0 : 0 ≤ N * u := by positivity
  have hb0 : 0 ≤ m * u := by positivity
  have hsum : 50 * (N * u) + 26 * (m * u) + 670 * u ≤ 1 / 200 := le_trans (le_of_eq (by ring)) hN
  have hp : 0 ≤ (1 - η) * g E + η * L E := add_nonneg (mul_nonneg hv hg) (mul_nonneg hη hL)
  have hp0 : 0 ≤ (1 - η) * g r.er + η * L r.er := add_nonneg (mul_nonneg hv hg0) (mul_nonneg hη hL0)
  have htail := gauss_tail hδ ht0 (by positivity) (by linarith) (X := 1.01 * (N * u + m * u + 36 * u)) (by positivity)
  have hG' : G ≤ (1.01 * (N * u + m * u + 36 * u) + 1.01 * (1.01 * (2 * (N * u) + 2 * (m * u) + 62 * u))) * g r.er := by
    rw [hG, hgE]
    calc _ = (1.01 * (N * u + m * u + 36 * u) * Real.exp δ + |Real.exp δ - 1|) * Real.exp (-t) * g r.er := by ring
      _ ≤ _ := mul_le_mul_of_nonneg_right htail hg0
  have key := far_bound hu ha0 hb0 hv hη hg hL hle hg0 hL0 hle0 hG' (by positivity) rfl hsum hP
  rw [abs_mul, abs_of_nonneg hp, abs_mul, abs_of_nonneg hp0]
  refine (mul_le_mul_of_nonneg_left key (abs_nonneg I)).trans (le_of_eq ?_)
  ring

/-- Double precision with rounding to nearest. -/
noncomputable def exPArith : PArith := { exRArith with ln2 := rn (Real.log 2), pow := fun x y => rn (x ^ y) }

theorem exPArith_accurate : exPArith.Accurate (1 / 2 ^ 53) where
  toAccurate := exRArith_accurate
  ln2 := by
    have := rn_rounding (Real.log 2)
    rwa [abs_of_pos (Real.log_pos one_lt_two)] at this
  pow x y hx := by
    have := rn_rounding (x ^ y)
    rw [abs_of_pos (Real.rpow_pos_of_pos hx y)] at this
    refine this.trans (mul_le_mul_of_nonneg_right (by norm_num) (Real.rpow_pos_of_pos hx y).le)

/-- The excited state at 2 MeV with two channels: the parameter `Γ` is between 4 and 5 MeV. -/
theorem exPV_log (er : ℝ) : |Real.log (mkPV er 4 (dopplerWidth exConst 11 293 2)).bigGamma| ≤ (2 : ℕ) := by
  have hd0 : 0 ≤ dopplerWidth exConst 11 293 2 := dopplerWidth_nonneg _ _ _ (by norm_num)
  have hd : dopplerWidth exConst 11 293 2 ≤ 0.01 := by
    unfold dopplerWidth
    have : Real.sqrt (2 * exConst.kB * 1e-6 * 293 / (11 * exConst.u)) ≤ 0.005 := by
      rw [Real.sqrt_le_left (by norm_num)]
      norm_num [exConst]
    linarith
  have hq : Real.sqrt (Real.log 2) ≤ 1 := by
    rw [Real.sqrt_le_one]
    exact (Real.log_two_lt_d9.trans (by norm_num)).le
  have hq0 := sqrt_log_two_pos
  have hg0 : 0 ≤ 2 * Real.sqrt (Real.log 2) * dopplerWidth exConst 11 293 2 := by positivity
  have hg : 2 * Real.sqrt (Real.log 2) * dopplerWidth exConst 11 293 2 ≤ 0.02 := by nlinarith
  show |Real.log (pvGamma (2 * Real.sqrt (Real.log 2) * dopplerWidth exConst 11 293 2) 4)| ≤ _
  generalize 2 * Real.sqrt (Real.log 2) * dopplerWidth exConst 11 293 2 = g at *
  have h4 : 4 ≤ pvGamma g 4 := pvGamma_ge_right hg0 (by norm_num)
  have h5 : pvGamma g 4 ≤ 5 := by
    rw [pvGamma_eq hg0 (by norm_num), ← pow_five_root (by norm_num : (0 : ℝ) ≤ 5)]
    refine Real.rpow_le_rpow ((by norm_num : (0 : ℝ) ≤ 4 ^ 5).trans (pvBase_ge_right hg0 (by norm_num))) ?_ (by norm_num)
    unfold pvBase
    have p2 : g ^ 2 ≤ 0.02 ^ 2 := by gcongr
    have p3 : g ^ 3 ≤ 0.02 ^ 3 := by gcongr
    have p4 : g ^ 4 ≤ 0.02 ^ 4 := by gcongr
    have p5 : g ^ 5 ≤ 0.02 ^ 5 := by gcongr
    norm_num at p2 p3 p4 p5 ⊢
    linarith
  have hpos : 0 < pvGamma g 4 := by linarith
  rw [abs_of_nonneg (Real.log_nonneg (by linarith))]
  have he : (5 : ℝ) ≤ Real.exp 2 := by
    have := Real.quadratic_le_exp_of_nonneg (by norm_num : (0 : ℝ) ≤ 2)
    linarith
  have := Real.log_le_log hpos (h5.trans he)
  rw [Real.log_exp] at this
  exact_mod_cast this

/-- The hypotheses of C125 hold for this state, and the error is at most `1e-13` of the value plus `2e-14` of the maximum. -/
example : ∃ r σ₀, mkPseudoVoigt exConst exGround exExcited 11 293 none = .ok r ∧ r.call r.er = .ok (.fin σ₀) ∧ ∀ E, ∃ σ σ',
    r.call E = .ok (.fin σ) ∧ exPArith.pseudoVoigt exConst exGround exExcited 11 293 none E = .ok (.fin σ') ∧
    |σ' - σ| ≤ 1e-13 * |σ| + 2e-14 * |σ₀| := by
  obtain ⟨r0, h0, he⟩ := exResonance
  have hr : mkPseudoVoigt exConst exGround exExcited 11 293 none =
      .ok { r0 with dist := (mkPV r0.er 4 (dopplerWidth exConst 11 293 r0.er)).toDist, params := [] } := by
    simp [mkPseudoVoigt, h0, exExcited_width, getDopplerWidth_ok, bind, Except.bind]
  have hc : (exExcited.channels : ℝ) = 2 := by norm_num [Level.channels, exExcited, state]
  obtain ⟨σ₀, h1, h2⟩ := C125_everywhere (m := 2) exPArith_accurate (by norm_num) hr exExcited_physical (by norm_num) (by norm_num)
    (by simp [exExcited, exGround, state, groundState]) exExcited_exact exExcited_width rfl (by simp only; rw [he]; exact exPV_log 2)
    (by rw [hc]; norm_num)
  refine ⟨_, σ₀, hr, h1, fun E => ?_⟩
  obtain ⟨σ, σ', a, b, c⟩ := h2 E
  refine ⟨σ, σ', a, b, c.trans (add_le_add (mul_le_mul_of_nonneg_right ?_ (abs_nonneg _)) (mul_le_mul_of_nonneg_right ?_ (abs_nonneg _)))⟩ <;>
    rw [hc] <;> norm_num

/-- C125 at the resonance energy, with the same state. -/
example : ∃ r σ σ', mkPseudoVoigt exConst exGround exExcited 11 293 none = .ok r ∧ r.call r.er = .ok (.fin σ) ∧
    exPArith.pseudoVoigt exConst exGround exExcited 11 293 none r.er = .ok (.fin σ') ∧ |σ' - σ| ≤ 1e-13 * |σ| := by
  obtain ⟨r0, h0, he⟩ := exResonance
  have hr : mkPseudoVoigt exConst exGround exExcited 11 293 none =
      .ok { r0 with dist := (mkPV r0.er 4 (dopplerWidth exConst 11 293 r0.er)).toDist, params := [] } := by
    simp [mkPseudoVoigt, h0, exExcited_width, getDopplerWidth_ok, bind, Except.bind]
  have hc : (exExcited.channels : ℝ) = 2 := by norm_num [Level.channels, exExcited, state]
  obtain ⟨σ, σ', h1, h2, h3⟩ := C125_near (m := 2) exPArith_accurate (by norm_num) hr exExcited_physical (by norm_num) (by norm_num)
    (by simp [exExcited, exGround, state, groundState]) exExcited_exact exExcited_width rfl (by simp only; rw [he]; exact exPV_log 2)
    r0.er (by rw [hc]; simp only [sub_self, zero_div]; norm_num)
  refine ⟨_, σ, σ', hr, h1, h2, h3.trans (mul_le_mul_of_nonneg_right ?_ (abs_nonneg _))⟩
  rw [hc]
  simp only [sub_self, zero_div]
  norm_num

end Ries
