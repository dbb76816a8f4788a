import Verif.Props.KleinNishina
import Mathlib.Geometry.Euclidean.Angle.Unoriented.Basic
import Mathlib.Analysis.InnerProductSpace.PiL2

/-!
# C76 – C78: kinematics of Compton scattering

The kinematics is stated with momentum vectors: `p` and `p'` are the momenta (times `c`) of the
photon before and after the scattering, so that its energies are `‖p‖` and `‖p'‖`, and the target of
mass `m` (times `c²`) is at rest before and has the momentum `p - p'` afterwards.
-/

namespace Ries
open Real KN

variable {V : Type*} [NormedAddCommGroup V] [InnerProductSpace ℝ V]

/-- conservation of energy, when the momentum transfer goes to a target of mass `m` at rest -/
def EnergyConserved (m : ℝ) (p p' : V) : Prop :=
  ‖p‖ + m = ‖p'‖ + √(m ^ 2 + ‖p - p'‖ ^ 2)

/-! ## C76 -/

theorem conserved_iff {m : ℝ} (hm : 0 < m) {p p' : V} (hp : p ≠ 0) :
    EnergyConserved m p p' ↔
      ‖p'‖ * (m + ‖p‖ * (1 - cos (InnerProductGeometry.angle p p'))) = ‖p‖ * m := by
  have ha : 0 < ‖p‖ := norm_pos_iff.2 hp
  have hb : 0 ≤ ‖p'‖ := norm_nonneg p'
  have hn : ‖p - p'‖ ^ 2 = ‖p‖ ^ 2 + ‖p'‖ ^ 2
      - 2 * ‖p‖ * ‖p'‖ * cos (InnerProductGeometry.angle p p') := by
    rw [@norm_sub_sq_real, ← InnerProductGeometry.cos_angle_mul_norm_mul_norm p p']
    ring
  have hc := cos_le (InnerProductGeometry.angle p p')
  unfold EnergyConserved
  rw [hn]
  generalize cos (InnerProductGeometry.angle p p') = c at hc ⊢
  generalize ‖p‖ = a at ha ⊢
  generalize ‖p'‖ = b at hb ⊢
  constructor
  · intro h
    have h0 : 0 ≤ m ^ 2 + (a ^ 2 + b ^ 2 - 2 * a * b * c) := by nlinarith [sq_nonneg (a - b), mul_nonneg (mul_nonneg ha.le hb) hc.1]
    have h1 : (a + m - b) ^ 2 = m ^ 2 + (a ^ 2 + b ^ 2 - 2 * a * b * c) := by
      rw [show a + m - b = √(m ^ 2 + (a ^ 2 + b ^ 2 - 2 * a * b * c)) by linarith, sq_sqrt h0]
    linarith
  · intro h
    have hle : b ≤ a := by
      by_contra hlt
      push Not at hlt
      nlinarith [mul_nonneg (mul_nonneg ha.le hb) hc.1, mul_pos hm ha]
    rw [show m ^ 2 + (a ^ 2 + b ^ 2 - 2 * a * b * c) = (a + m - b) ^ 2 by linarith,
      sqrt_sq (by linarith)]
    ring

/-- C76, proved part: for the electron as target, a scattering with momenta `p` and `p'` conserves
energy and momentum if and only if the scattered energy is `E * Ep_over_E(E, theta)` with the angle
`theta` between the momenta.
Missing for the full statement: targets of other masses, for which it is false (`C76_refuted`): the
static method uses the electron mass for every instance. -/
theorem C76_conservation_partial (k : PhysConst) {p p' : V} (hp : p ≠ 0) :
    EnergyConserved k.me p p' ↔
      ‖p'‖ = ‖p‖ * EpOverE k ‖p‖ (InnerProductGeometry.angle p p') := by
  rw [conserved_iff k.me_pos hp]
  have hm := k.me_pos
  have ha : 0 < ‖p‖ := norm_pos_iff.2 hp
  have hc := (cos_le (InnerProductGeometry.angle p p')).1
  unfold EpOverE
  generalize cos (InnerProductGeometry.angle p p') = c at hc ⊢
  have ht : 0 < 1 + ‖p‖ / k.me * (1 - c) := by positivity
  rw [mul_one_div, eq_div_iff ht.ne']
  constructor
  · intro h
    field_simp
    linarith
  · intro h
    field_simp at h
    linarith

/-- every direction has a scattered photon: the statement is not vacuous -/
example (k : PhysConst) {p n : V} (hp : p ≠ 0) (hn : n ≠ 0) : ∃ p' : V,
    InnerProductGeometry.angle p p' = InnerProductGeometry.angle p n ∧ EnergyConserved k.me p p' := by
  have hr : 0 < ‖p‖ * EpOverE k ‖p‖ (InnerProductGeometry.angle p n) / ‖n‖ :=
    div_pos (mul_pos (norm_pos_iff.2 hp)
      (rat_pos (div_nonneg (norm_nonneg _) k.me_pos.le) _)) (norm_pos_iff.2 hn)
  have ha := InnerProductGeometry.angle_smul_right_of_pos p n hr
  refine ⟨_, ha, (C76_conservation_partial k hp).2 ?_⟩
  rw [ha, norm_smul, Real.norm_of_nonneg hr.le, div_mul_cancel₀ _ (norm_ne_zero_iff.2 hn)]

/-- C76 is false of the code for targets of any other mass, at every energy and every angle except
forward scattering: the energy returned by the class violates the conservation of energy. -/
theorem C76_refuted (k : PhysConst) (s : KN) (hm : 0 < s.mc2) (hne : s.mc2 ≠ k.me) {p p' : V}
    (hp : p ≠ 0) (hang : InnerProductGeometry.angle p p' ≠ 0)
    (h : ‖p'‖ = ‖p‖ * EpOverE k ‖p‖ (InnerProductGeometry.angle p p')) :
    ¬ EnergyConserved s.mc2 p p' := by
  have h1 := (C76_conservation_partial k hp).2 h
  rw [conserved_iff k.me_pos hp] at h1
  rw [conserved_iff hm hp]
  intro h2
  have ha : 0 < ‖p‖ := norm_pos_iff.2 hp
  have hb : 0 < ‖p'‖ := by
    rw [h]
    exact mul_pos ha (rat_pos (div_nonneg (norm_nonneg _) k.me_pos.le) _)
  have hc : cos (InnerProductGeometry.angle p p') < 1 := by
    have := strictAntiOn_cos ⟨le_rfl, pi_pos.le⟩
      ⟨InnerProductGeometry.angle_nonneg p p', InnerProductGeometry.angle_le_pi p p'⟩
      (lt_of_le_of_ne (InnerProductGeometry.angle_nonneg p p') hang.symm)
    simpa using this
  generalize cos (InnerProductGeometry.angle p p') = c at hc h1 h2
  have hd : (s.mc2 - k.me) * (‖p'‖ - ‖p‖) = 0 := by linarith
  rcases mul_eq_zero.1 hd with h3 | h3
  · exact hne (by linarith)
  · have h4 : ‖p'‖ = ‖p‖ := by linarith
    rw [h4] at h1
    have : ‖p‖ * (‖p‖ * (1 - c)) = 0 := by linarith
    have : 0 < ‖p‖ * (‖p‖ * (1 - c)) := mul_pos ha (mul_pos ha (by linarith))
    linarith

/-- backscattering of a 1 MeV photon off a proton, in three dimensions -/
example : ∃ p p' : EuclideanSpace ℝ (Fin 3), p ≠ 0 ∧ InnerProductGeometry.angle p p' ≠ 0 ∧
    ‖p'‖ = ‖p‖ * EpOverE exConst ‖p‖ (InnerProductGeometry.angle p p') ∧
    ¬ EnergyConserved (KN.mk 1 938.272).mc2 p p' := by
  have hp : EuclideanSpace.single (0 : Fin 3) (1 : ℝ) ≠ 0 := by simp
  have hr : (0 : ℝ) < 1 * EpOverE exConst 1 π :=
    mul_pos one_pos (rat_pos (div_nonneg one_pos.le exConst.me_pos.le) _)
  have ha : InnerProductGeometry.angle (EuclideanSpace.single (0 : Fin 3) (1 : ℝ))
      ((1 * EpOverE exConst 1 π) • -(EuclideanSpace.single (0 : Fin 3) (1 : ℝ))) = π := by
    rw [InnerProductGeometry.angle_smul_right_of_pos _ _ hr, InnerProductGeometry.angle_neg_right,
      InnerProductGeometry.angle_self hp, sub_zero]
  have hn : ‖(1 * EpOverE exConst 1 π) • -(EuclideanSpace.single (0 : Fin 3) (1 : ℝ))‖ =
      ‖EuclideanSpace.single (0 : Fin 3) (1 : ℝ)‖ *
        EpOverE exConst ‖EuclideanSpace.single (0 : Fin 3) (1 : ℝ)‖ (InnerProductGeometry.angle
          (EuclideanSpace.single (0 : Fin 3) (1 : ℝ))
          ((1 * EpOverE exConst 1 π) • -(EuclideanSpace.single (0 : Fin 3) (1 : ℝ)))) := by
    rw [ha, norm_smul, Real.norm_of_nonneg hr.le]
    simp
  have ha0 := ha.trans_ne pi_ne_zero
  exact ⟨_, _, hp, ha0, hn, C76_refuted exConst _ (by norm_num) (by norm_num [exConst]) hp ha0 hn⟩

/-! ## C77 -/

/-- C77, proved part: for `Z` electrons, the energy-differential cross section is
`π Z α² (ħc)² / (mc² E²) * (E'/E + E/E' - sin² θ)` with the scattering angle of the scattered energy.
Missing for the full statement: other masses, for which it is false (`C77_refuted`). -/
theorem C77_energy_differential_partial (k : PhysConst) (Z : ℝ) {E Ep : ℝ} (hE : 0 < E)
    (h : Ep ∈ Set.Icc (comptonEdge k E) E) :
    (electron k Z).dEp k E Ep = π * Z * k.alpha ^ 2 * k.hbarc ^ 2 / (k.me * E ^ 2) *
      (Ep / E + E / Ep - (1 - (1 - k.me * (1 / Ep - 1 / E)) ^ 2)) := by
  have hEp : 0 < Ep := lt_of_lt_of_le (edge_pos k hE) h.1
  have hm := k.me_pos
  have hcos : cos (KN.theta k E Ep) = 1 - k.me * (1 / Ep - 1 / E) := by
    have h1 := EpOverE_theta k hE h.1 h.2
    unfold EpOverE at h1
    rw [one_div, inv_eq_iff_eq_inv, inv_div] at h1
    have : E / k.me * (1 - cos (KN.theta k E Ep)) = E / Ep - 1 := by linarith
    field_simp at this ⊢
    linarith
  have hs : sin (KN.theta k E Ep) ^ 2 = 1 - (1 - k.me * (1 / Ep - 1 / E)) ^ 2 := by
    rw [sin_sq, hcos]
  unfold dEp dOmegaUnpol
  simp only
  rw [EpOverE_theta k hE h.1 h.2, hs]
  unfold scale electron
  simp only
  have e1 : 1 / (Ep / E) = E / Ep := one_div_div _ _
  rw [e1]
  generalize Ep / E + E / Ep - (1 - (1 - k.me * (1 / Ep - 1 / E)) ^ 2) = B
  field_simp

example : (0.3 : ℝ) ∈ Set.Icc (comptonEdge exConst 1) 1 := by
  rw [edge_eq]; norm_num [exConst]

/-- C77 is false of the code for every other mass: already for the energy of the incoming photon
(forward scattering, where the bracket is 2), at every energy. -/
theorem C77_refuted (k : PhysConst) (s : KN) (hZ : 0 < s.Z) (hm : 0 < s.mc2) (hne : s.mc2 ≠ k.me)
    {E : ℝ} (hE : 0 < E) :
    s.dEp k E E ≠ π * s.Z * k.alpha ^ 2 * k.hbarc ^ 2 / (s.mc2 * E ^ 2) *
      (E / E + E / E - (1 - (1 - s.mc2 * (1 / E - 1 / E)) ^ 2)) := by
  have h1 := k.alpha_pos
  have h2 := k.hbarc_pos
  have ht : KN.theta k E E = 0 := by simp [KN.theta, div_self hE.ne']
  have hr : EpOverE k E 0 = 1 := by simp [EpOverE]
  unfold dEp dOmegaUnpol
  simp only [ht, hr, scale, sub_self, div_self hE.ne', sin_zero]
  intro h
  apply hne
  have hp := pi_pos
  field_simp at h
  nlinarith [h]

example : (KN.mk 1 938.272).mc2 ≠ exConst.me := by norm_num [exConst]

/-! ## C78 -/

theorem arccos_arg_iff (k : PhysConst) {E Ep : ℝ} (hE : 0 < E) (h0 : Ep ≠ 0) :
    1 - (E / Ep - 1) * k.me / E ∈ Set.Icc (-1) 1 ↔ Ep ∈ Set.Icc (comptonEdge k E) E := by
  have hm := k.me_pos
  have e : 1 - (E / Ep - 1) * k.me / E = 1 - k.me / Ep + k.me / E := by
    field_simp
    ring
  rw [e, edge_eq]
  rcases lt_or_gt_of_ne h0 with hn | hp
  · constructor
    · intro h
      have h1 : k.me / Ep < 0 := div_neg_of_pos_of_neg hm hn
      have h2 : 0 < k.me / E := div_pos hm hE
      have := h.2
      linarith
    · intro h
      have : 0 < E / (1 + 2 * (E / k.me)) := by positivity
      linarith [h.1]
  · have hd : E / (1 + 2 * (E / k.me)) = E * k.me / (k.me + 2 * E) := by field_simp
    rw [hd, Set.mem_Icc, Set.mem_Icc, div_le_iff₀ (by positivity)]
    have e1 : -1 ≤ 1 - k.me / Ep + k.me / E ↔ E * k.me ≤ Ep * (k.me + 2 * E) := by
      rw [show (1 : ℝ) - k.me / Ep + k.me / E = -1 + (Ep * (k.me + 2 * E) - E * k.me) * (1 / (Ep * E)) by
        field_simp; ring]
      rw [le_add_iff_nonneg_right, mul_nonneg_iff_of_pos_right (by positivity), sub_nonneg]
    have e2 : 1 - k.me / Ep + k.me / E ≤ 1 ↔ Ep ≤ E := by
      rw [show (1 : ℝ) - k.me / Ep + k.me / E = 1 - (E - Ep) * (k.me / (Ep * E)) by
        field_simp; ring]
      rw [sub_le_self_iff, mul_nonneg_iff_of_pos_right (by positivity), sub_nonneg]
    exact and_congr e1 e2

theorem dEpFl_inside (k : PhysConst) (s : KN) {E Ep : ℝ} (hE : 0 < E)
    (h : Ep ∈ Set.Icc (comptonEdge k E) E) (φ : ℝ) : s.dEpFl k E Ep = .ok (.fin (s.dEp k E Ep)) ∧
      s.dEpdPhiFl k E Ep φ = .ok (.fin (s.dEpdPhi k E Ep φ)) := by
  have h0 : Ep ≠ 0 := (lt_of_lt_of_le (edge_pos k hE) h.1).ne'
  have := (arccos_arg_iff k hE h0).2 h
  have ht : thetaFl k E Ep = .ok (.fin (KN.theta k E Ep)) := by
    rw [thetaFl, if_neg h0, if_neg hE.ne', flArccos, if_pos this]
    rfl
  rw [dEpFl, dEpdPhiFl, ht]
  exact ⟨rfl, rfl⟩

theorem dEpFl_outside (k : PhysConst) (s : KN) {E Ep : ℝ} (hE : 0 < E) (h0 : Ep ≠ 0)
    (h : Ep ∉ Set.Icc (comptonEdge k E) E) (φ : ℝ) : s.dEpFl k E Ep = .ok .nan ∧
      s.dEpdPhiFl k E Ep φ = .ok .nan := by
  have := mt (arccos_arg_iff k hE h0).1 h
  have ht : thetaFl k E Ep = .ok .nan := by
    rw [thetaFl, if_neg h0, if_neg hE.ne', flArccos, if_neg this]
  rw [dEpFl, dEpdPhiFl, ht]
  exact ⟨rfl, rfl⟩

/-- C78, proved part: the energy-differential cross sections are positive (nonnegative) numbers exactly
for the kinematically possible scattered energies, namely those whose integrals are given in C43.
Missing for the full statement: at impossible energies they are nan instead of zero
(`C78_refuted`). -/
theorem C78_possible_energies_partial (k : PhysConst) (s : KN) (hZ : 0 < s.Z) (hm : 0 < s.mc2)
    {E Ep : ℝ} (hE : 0 < E) (h0 : Ep ≠ 0) (φ : ℝ) :
    (Ep ∈ Set.Icc (comptonEdge k E) E → s.dEpFl k E Ep = .ok (.fin (s.dEp k E Ep)) ∧
      0 < s.dEp k E Ep ∧ s.dEpdPhiFl k E Ep φ = .ok (.fin (s.dEpdPhi k E Ep φ)) ∧
      0 ≤ s.dEpdPhi k E Ep φ) ∧
    (Ep ∉ Set.Icc (comptonEdge k E) E → s.dEpFl k E Ep = .ok .nan ∧
      s.dEpdPhiFl k E Ep φ = .ok .nan) := by
  constructor
  · intro h
    have hn := C44_differential_nonneg k s hZ hm E hE
    obtain ⟨h1, h2⟩ := dEpFl_inside k s hE h φ
    exact ⟨h1, hn.2.2.2.1 Ep h, h2, hn.2.2.1 Ep h φ⟩
  · intro h
    exact dEpFl_outside k s hE h0 h φ

/-- C78 is false of the code: at every impossible energy the result is not a number. -/
theorem C78_refuted (k : PhysConst) (s : KN) {E Ep : ℝ} (hE : 0 < E) (h0 : Ep ≠ 0)
    (h : Ep ∉ Set.Icc (comptonEdge k E) E) : ¬ ∃ v, s.dEpFl k E Ep = .ok (.fin v) := by
  rw [(dEpFl_outside k s hE h0 h 0).1]
  simp

/-- a photon of 1 MeV cannot be scattered to 2 MeV or to 0.1 MeV -/
example : (2 : ℝ) ∉ Set.Icc (comptonEdge exConst 1) 1 ∧
    (0.1 : ℝ) ∉ Set.Icc (comptonEdge exConst 1) 1 := by
  rw [edge_eq]; norm_num [exConst]

end Ries
