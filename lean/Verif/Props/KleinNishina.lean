import Verif.Lemmas.KleinNishina
import Verif.Spec.Examples

/-! # C40–C47: Compton scattering -/

namespace Ries
open Real KN

/-! ## C40 -/

/-- C40: range, value at 0, strict monotonicity, and the Compton edge as the smallest scattered energy,
which is always below half the electron mass. -/
theorem C40_compton_kinematics (k : PhysConst) (E : ℝ) (hE : 0 < E) :
    (∀ θ, EpOverE k E θ ∈ Set.Icc (1 / (1 + 2 * (E / k.me))) 1) ∧
    EpOverE k E 0 = 1 ∧
    StrictAntiOn (EpOverE k E) (Set.Icc 0 π) ∧
    (∀ θ, comptonEdge k E ≤ E * EpOverE k E θ) ∧ (∃ θ, E * EpOverE k E θ = comptonEdge k E) ∧
    comptonEdge k E < k.me / 2 := by
  have hm := k.me_pos
  have hx : 0 < E / k.me := div_pos hE hm
  have low : ∀ θ, 1 / (1 + 2 * (E / k.me)) ≤ EpOverE k E θ := by
    intro θ
    apply one_div_le_one_div_of_le (lt_of_lt_of_le one_pos (t_pos hx.le θ))
    nlinarith [mul_nonneg hx.le (sub_nonneg.2 (cos_le θ).2)]
  refine ⟨fun θ => ⟨low θ, rat_le_one hx.le θ⟩, by simp [EpOverE], ?_, ?_, ⟨π, by simp [comptonEdge, mul_comm]⟩, ?_⟩
  · intro a ha b hb hab
    apply one_div_lt_one_div_of_lt (lt_of_lt_of_le one_pos (t_pos hx.le a))
    have := strictAntiOn_cos ha hb hab
    nlinarith
  · intro θ
    rw [edge_eq, div_eq_mul_one_div]
    exact mul_le_mul_of_nonneg_left (low θ) hE.le
  · rw [edge_eq, div_lt_div_iff₀ (by positivity) (by norm_num)]
    have : k.me * (1 + 2 * (E / k.me)) = k.me + 2 * E := by field_simp
    rw [this]; linarith

/-! ## C41 -/

/-- C41: scattering angle and scattered energy are inverse to each other. -/
theorem C41_theta_energy_inverse (k : PhysConst) (E : ℝ) (hE : 0 < E) :
    (∀ θ ∈ Set.Icc 0 π, KN.theta k E (E * EpOverE k E θ) = θ) ∧
    (∀ Ep ∈ Set.Icc (comptonEdge k E) E,
      E * EpOverE k E (KN.theta k E Ep) = Ep ∧ KN.theta k E Ep ∈ Set.Icc 0 π) := by
  have hm := k.me_pos
  have hx : 0 < E / k.me := div_pos hE hm
  constructor
  · intro θ hθ
    unfold KN.theta
    have ht := lt_of_lt_of_le one_pos (t_pos hx.le θ)
    have e : 1 - (E / (E * EpOverE k E θ) - 1) * k.me / E = cos θ := by
      have h1 : E / (E * EpOverE k E θ) = 1 + E / k.me * (1 - cos θ) := by
        unfold EpOverE
        rw [div_mul_eq_div_div, div_self hE.ne', one_div_one_div]
      rw [h1]
      have : (1 + E / k.me * (1 - cos θ) - 1) * k.me / E = 1 - cos θ := by
        rw [add_sub_cancel_left]; field_simp
      rw [this]; ring
    rw [e, arccos_cos hθ.1 hθ.2]
  · intro Ep h
    refine ⟨?_, arccos_nonneg _, arccos_le_pi _⟩
    rw [EpOverE_theta k hE h.1 h.2]; field_simp

example : (0.3 : ℝ) ∈ Set.Icc (comptonEdge exConst 1) 1 := by
  rw [edge_eq]; norm_num [exConst]

/-! ## C42 -/

/-- C42: for the electron mass the angular integrals of the differential cross sections are the total
cross section. -/
theorem C42_angular_integral (k : PhysConst) (Z E : ℝ) (hE : 0 < E) :
    (∫ θ in (0:ℝ)..π, ∫ φ in (0:ℝ)..(2 * π), (electron k Z).dOmega k E θ φ * sin θ) = (electron k Z).total k E ∧
    (∫ θ in (0:ℝ)..π, (electron k Z).dTheta k E θ) = (electron k Z).total k E := by
  have h2 : (∫ θ in (0:ℝ)..π, (electron k Z).dTheta k E θ) = (electron k Z).total k E := by
    simp only [dTheta_eq k _ hE.le]
    rw [intervalIntegral.integral_const_mul, total_eq k _ hE (by exact k.me_pos)]
    rfl
  refine ⟨?_, h2⟩
  rw [← h2]
  refine intervalIntegral.integral_congr fun θ _ => ?_
  simp only [intervalIntegral.integral_mul_const, dOmega_phi]
  rfl

/-! ## C43 -/

/-- C43: integrating the energy-differential cross sections over the kinematically allowed scattered
energies gives the total cross section. -/
theorem C43_energy_integral (k : PhysConst) (Z E : ℝ) (hE : 0 < E) :
    (∫ Ep in comptonEdge k E..E, (electron k Z).dEp k E Ep) = (electron k Z).total k E ∧
    (∫ Ep in comptonEdge k E..E, ∫ φ in (0:ℝ)..(2 * π), (electron k Z).dEpdPhi k E Ep φ) =
      (electron k Z).total k E := by
  have h1 : (∫ Ep in comptonEdge k E..E, (electron k Z).dEp k E Ep) = (electron k Z).total k E := by
    rw [dEp_integral k _ hE, total_eq k _ hE (by exact k.me_pos)]; rfl
  refine ⟨h1, ?_⟩
  rw [← h1]
  refine intervalIntegral.integral_congr fun Ep _ => ?_
  have : ∀ φ, (electron k Z).dEpdPhi k E Ep φ =
      (electron k Z).dOmega k E (KN.theta k E Ep) φ * (k.me / (Ep * Ep)) := by
    intro φ; unfold dEpdPhi; ring
  simp only [this, intervalIntegral.integral_mul_const, dOmega_phi, dEp]
  ring

/-! ## C44 -/

theorem scale_pos (k : PhysConst) (s : KN) (hZ : 0 < s.Z) (hm : 0 < s.mc2) : 0 < s.scale k := by
  have := k.alpha_pos; have := k.hbarc_pos
  unfold scale; positivity

theorem edge_pos (k : PhysConst) {E : ℝ} (hE : 0 < E) : 0 < comptonEdge k E := by
  have := k.me_pos
  rw [edge_eq]; positivity

theorem bracket_bounds {r θ : ℝ} (hr : 0 < r) : 2 ≤ r + 1 / r ∧ sin θ ^ 2 ≤ 1 := by
  refine ⟨?_, sin_sq_le_one θ⟩
  have : r + 1 / r - 2 = (r - 1) ^ 2 / r := by field_simp; ring
  have h : 0 ≤ (r - 1) ^ 2 / r := by positivity
  linarith

/-- C44 (i): all differential cross sections are nonnegative (for every mass; the ones per scattered
energy for the kinematically possible energies, the one per polar angle for angles in [0, π]). -/
theorem C44_differential_nonneg (k : PhysConst) (s : KN) (hZ : 0 < s.Z) (hm : 0 < s.mc2) (E : ℝ) (hE : 0 < E) :
    (∀ θ φ, 0 ≤ s.dOmega k E θ φ) ∧ (∀ θ, 0 < s.dOmegaUnpol k E θ) ∧
    (∀ Ep ∈ Set.Icc (comptonEdge k E) E, ∀ φ, 0 ≤ s.dEpdPhi k E Ep φ) ∧
    (∀ Ep ∈ Set.Icc (comptonEdge k E) E, 0 < s.dEp k E Ep) ∧
    (∀ θ ∈ Set.Icc 0 π, 0 ≤ s.dTheta k E θ) := by
  have hs := scale_pos k s hZ hm
  have hme := k.me_pos
  have hx : 0 ≤ E / k.me := div_nonneg hE.le hme.le
  have a : ∀ θ φ, 0 ≤ s.dOmega k E θ φ := by
    intro θ φ
    have hr : 0 < EpOverE k E θ := rat_pos hx θ
    unfold dOmega
    obtain ⟨b1, b2⟩ := bracket_bounds (θ := θ) hr
    have b3 : sin θ ^ 2 * cos φ ^ 2 ≤ 1 := mul_le_one₀ b2 (sq_nonneg _) (cos_sq_le_one φ)
    refine mul_nonneg (by positivity) (by linarith)
  have b : ∀ θ, 0 < s.dOmegaUnpol k E θ := by
    intro θ
    have hr : 0 < EpOverE k E θ := rat_pos hx θ
    unfold dOmegaUnpol
    obtain ⟨b1, b2⟩ := bracket_bounds (θ := θ) hr
    refine mul_pos (by positivity) (by linarith)
  refine ⟨a, b, fun Ep _ φ => ?_, fun Ep h => ?_, fun θ hθ => ?_⟩
  · exact div_nonneg (mul_nonneg (a _ _) hme.le) (mul_self_nonneg _)
  · have h0 : Ep ≠ 0 := (lt_of_lt_of_le (edge_pos k hE) h.1).ne'
    exact div_pos (mul_pos (b _) hme) (mul_self_pos.2 h0)
  · exact mul_nonneg (b θ).le (sin_nonneg_of_mem_Icc hθ)

example : 0 < (electron exConst 82).dEp exConst 1 0.3 :=
  (C44_differential_nonneg exConst (electron exConst 82) (by norm_num [electron])
    (by norm_num [electron, exConst]) 1 one_pos).2.2.2.1 _ (by
      rw [Set.mem_Icc, edge_eq]; norm_num [exConst])

/-- C44 (ii): the total cross section is positive, strictly decreasing in the energy, below the Thomson
cross section of `Z` particles, `8π/3 · Z (α ħc / mc²)²`, and tends to it as the energy tends to zero. -/
theorem C44_total (k : PhysConst) (s : KN) (hZ : 0 < s.Z) (hm : 0 < s.mc2) :
    (∀ E, 0 < E → 0 < s.total k E) ∧
    StrictAntiOn (s.total k) (Set.Ioi 0) ∧
    (∀ E, 0 < E → s.total k E < 8 * π / 3 * (s.Z * (k.alpha * k.hbarc / s.mc2) ^ 2)) ∧
    Filter.Tendsto (s.total k) (nhdsWithin 0 (Set.Ioi 0))
      (nhds (8 * π / 3 * (s.Z * (k.alpha * k.hbarc / s.mc2) ^ 2))) := by
  have hsc : s.Z * (k.alpha * k.hbarc / s.mc2) ^ 2 = s.scale k := by
    unfold scale; field_simp
  rw [hsc]
  have hs := scale_pos k s hZ hm
  have hps : 0 < π * s.scale k := by positivity
  have up : ∀ E, 0 < E → s.total k E < 8 * π / 3 * s.scale k := by
    intro E hE
    rw [total_eq k s hE hm]
    have := angInt_strictAnti (by simp) (div_pos hE hm).le (div_pos hE hm)
    rw [angInt_zero] at this
    have := mul_lt_mul_of_pos_left this hps
    linarith
  refine ⟨fun E hE => ?_, fun a ha b hb hab => ?_, up, ?_⟩
  · rw [total_eq k s hE hm]
    exact mul_pos hps (angInt_pos (div_pos hE hm).le)
  · simp only [Set.mem_Ioi] at ha hb
    rw [total_eq k s ha hm, total_eq k s hb hm]
    exact mul_lt_mul_of_pos_left (angInt_strictAnti (div_pos ha hm).le (div_pos hb hm).le
      (div_lt_div_of_pos_right hab hm)) hps
  · have lower : Filter.Tendsto (fun E => π * s.scale k * (2 * ((1 / (1 + 2 * (E / s.mc2))) ^ 3 +
        1 / (1 + 2 * (E / s.mc2))) - 4 / 3 * (1 / (1 + 2 * (E / s.mc2))) ^ 2))
        (nhdsWithin 0 (Set.Ioi 0)) (nhds (8 * π / 3 * s.scale k)) := by
      have c : ContinuousAt (fun E => π * s.scale k * (2 * ((1 / (1 + 2 * (E / s.mc2))) ^ 3 +
        1 / (1 + 2 * (E / s.mc2))) - 4 / 3 * (1 / (1 + 2 * (E / s.mc2))) ^ 2)) 0 := by
        have c0 : ContinuousAt (fun E => 1 / (1 + 2 * (E / s.mc2))) 0 :=
          continuousAt_const.div (by fun_prop) (by simp)
        fun_prop
      have := c.tendsto.mono_left (nhdsWithin_le_nhds (s := Set.Ioi 0))
      refine this.congr' (Filter.EventuallyEq.refl _ _) |>.trans (le_of_eq ?_)
      congr 1; simp; ring
    refine tendsto_of_tendsto_of_tendsto_of_le_of_le' lower tendsto_const_nhds ?_ ?_
    · filter_upwards [self_mem_nhdsWithin] with E hE
      rw [total_eq k s hE hm]
      exact mul_le_mul_of_nonneg_left (angInt_lower (div_pos hE hm).le) hps.le
    · filter_upwards [self_mem_nhdsWithin] with E hE
      exact (up E hE).le

/-! ## C45 -/

/-- C45 is false of the code: the "unpolarized" cross section is not the azimuthal average. -/
theorem C45_azimuthal_average_refuted :
    ¬ ∀ (k : PhysConst) (s : KN), 0 < s.Z → 0 < s.mc2 → ∀ E θ, 0 < E →
      s.dOmegaUnpol k E θ = (1 / (2 * π)) * ∫ φ in (0:ℝ)..(2 * π), s.dOmega k E θ φ := by
  intro h
  have h1 := h exConst ⟨1, 1⟩ one_pos one_pos 1 0 one_pos
  rw [dOmega_phi] at h1
  have hp := (C44_differential_nonneg exConst ⟨1, 1⟩ one_pos one_pos 1 one_pos).2.1 0
  have hpi := two_le_pi
  have : 1 / (2 * π) < 1 := by rw [div_lt_one (by positivity)]; linarith
  nlinarith

/-- C45, the part that holds: the "unpolarized" cross section is the integral over the azimuthal angle,
i.e. `2π` times the average.  Missing: the factor `1/(2π)`. -/
theorem C45_azimuthal_average_partial (k : PhysConst) (s : KN) (E θ : ℝ) :
    s.dOmegaUnpol k E θ = 2 * π * ((1 / (2 * π)) * ∫ φ in (0:ℝ)..(2 * π), s.dOmega k E θ φ) := by
  rw [dOmega_phi]; field_simp

/-! ## C46 -/

/-- C46 is false of the code, and badly: for every mass different from the electron mass, every energy
and every `Z ≠ 0` the angular and energy integrals differ from the total cross section. -/
theorem C46_any_mass_refuted (k : PhysConst) (s : KN) (hm : 0 < s.mc2) (hne : s.mc2 ≠ k.me) (hZ : s.Z ≠ 0)
    (E : ℝ) (hE : 0 < E) :
    (∫ θ in (0:ℝ)..π, s.dTheta k E θ) ≠ s.total k E ∧
    (∫ Ep in comptonEdge k E..E, s.dEp k E Ep) ≠ s.total k E := by
  have hsc : π * s.scale k ≠ 0 := by
    have := k.alpha_pos; have := k.hbarc_pos
    unfold scale
    have := pi_ne_zero
    positivity
  have hang : angInt (E / k.me) ≠ angInt (E / s.mc2) := by
    intro h
    have := angInt_strictAnti.injOn (div_pos hE k.me_pos).le (div_pos hE hm).le h
    rw [div_eq_div_iff k.me_pos.ne' hm.ne'] at this
    exact hne (mul_left_cancel₀ hE.ne' this)
  constructor
  · simp only [dTheta_eq k _ hE.le]
    rw [intervalIntegral.integral_const_mul, total_eq k _ hE hm]
    exact fun h => hang (mul_left_cancel₀ hsc h)
  · rw [dEp_integral k s hE, total_eq k _ hE hm]
    exact fun h => hang (mul_left_cancel₀ hsc h)

/-- C46, the part that holds: what the integrals of the differential cross sections are for any mass
(the total cross section with the electron's kinematics), hence consistency exactly for the electron
mass. -/
theorem C46_any_mass_partial (k : PhysConst) (s : KN) (hm : 0 < s.mc2) (hZ : s.Z ≠ 0) (E : ℝ) (hE : 0 < E) :
    ((∫ θ in (0:ℝ)..π, s.dTheta k E θ) = s.total k E ↔ s.mc2 = k.me) ∧
    ((∫ Ep in comptonEdge k E..E, s.dEp k E Ep) = s.total k E ↔ s.mc2 = k.me) := by
  have e : s.mc2 = k.me → s = electron k s.Z := by
    intro h; cases s; simp only at h; subst h; rfl
  constructor
  · constructor
    · intro h; by_contra hc; exact (C46_any_mass_refuted k s hm hc hZ E hE).1 h
    · intro h; rw [e h]; exact (C42_angular_integral k _ E hE).2
  · constructor
    · intro h; by_contra hc; exact (C46_any_mass_refuted k s hm hc hZ E hE).2 h
    · intro h; rw [e h]; exact (C43_energy_integral k _ E hE).1

/-- a proton as scattering centre -/
example : (0:ℝ) < (KN.mk 1 938.272).mc2 ∧ (KN.mk 1 938.272).mc2 ≠ exConst.me := by
  norm_num [exConst]

/-! ## C47 -/

/-- C47: all cross sections are proportional to `Z`. -/
theorem C47_proportional_Z (k : PhysConst) (Z m E Ep θ φ : ℝ) :
    (KN.mk Z m).total k E = Z * (KN.mk 1 m).total k E ∧
    (KN.mk Z m).dOmega k E θ φ = Z * (KN.mk 1 m).dOmega k E θ φ ∧
    (KN.mk Z m).dOmegaUnpol k E θ = Z * (KN.mk 1 m).dOmegaUnpol k E θ ∧
    (KN.mk Z m).dTheta k E θ = Z * (KN.mk 1 m).dTheta k E θ ∧
    (KN.mk Z m).dEp k E Ep = Z * (KN.mk 1 m).dEp k E Ep ∧
    (KN.mk Z m).dEpdPhi k E Ep φ = Z * (KN.mk 1 m).dEpdPhi k E Ep φ := by
  have h : (KN.mk Z m).scale k = Z * (KN.mk 1 m).scale k := by unfold scale; ring
  have h1 : ∀ θ φ, (KN.mk Z m).dOmega k E θ φ = Z * (KN.mk 1 m).dOmega k E θ φ := by
    intro θ φ; unfold dOmega; simp only [h]; ring
  have h2 : ∀ θ, (KN.mk Z m).dOmegaUnpol k E θ = Z * (KN.mk 1 m).dOmegaUnpol k E θ := by
    intro θ; unfold dOmegaUnpol; simp only [h]; ring
  refine ⟨?_, h1 _ _, h2 _, ?_, ?_, ?_⟩
  · unfold total; simp only [h]; ring
  · unfold dTheta; rw [h2]; ring
  · unfold dEp; rw [h2]; ring
  · unfold dEpdPhi; rw [h1]; ring

end Ries
