import Verif.Lemmas.KNLimits
import Verif.Spec.Examples
import Verif.Props.KleinNishina

/-! # Property C109: Compton scattering at low and high energies -/

namespace Ries
open Real KN Filter Topology

/-- C109, low energies: the total cross section is the Thomson cross section times 1 - 2 x up to 7 x^2, x = E / m c^2. -/
theorem C109_low_energy (k : PhysConst) (s : KN) (hZ : 0 < s.Z) (hm : 0 < s.mc2) {E : ℝ} (hE : 0 < E) :
    |s.total k E / (8 * π / 3 * (s.Z * (k.alpha * k.hbarc / s.mc2) ^ 2)) - (1 - 2 * (E / s.mc2))| ≤ 7 * (E / s.mc2) ^ 2 := by
  have hsc : s.Z * (k.alpha * k.hbarc / s.mc2) ^ 2 = s.scale k := by
    unfold scale; field_simp
  have hs := scale_pos k s hZ hm
  rw [hsc, total_eq k s hE hm]
  have h := angInt_expand (div_pos hE hm).le
  have e : π * s.scale k * angInt (E / s.mc2) / (8 * π / 3 * s.scale k) - (1 - 2 * (E / s.mc2)) =
      3 / 8 * (angInt (E / s.mc2) - 8 / 3 * (1 - 2 * (E / s.mc2))) := by
    generalize angInt (E / s.mc2) = a
    generalize E / s.mc2 = x
    have := pi_pos
    field_simp
  rw [e, abs_mul, abs_of_pos (by norm_num)]
  linarith

example : 0 < (electron exConst 82).Z ∧ 0 < (electron exConst 82).mc2 ∧ (0 : ℝ) < 0.001 := by
  norm_num [electron, exConst]

/-- C109, low energies: the differential cross section tends to that of Thomson scattering, for every direction; forward
scattering does not depend on the energy. -/
theorem C109_thomson_differential (k : PhysConst) (s : KN) (θ φ : ℝ) :
    Tendsto (fun E => s.dOmega k E θ φ) (𝓝 0)
      (𝓝 (s.Z * (k.alpha * k.hbarc / s.mc2) ^ 2 * (1 - sin θ ^ 2 * cos φ ^ 2))) ∧
    ∀ E, s.dOmega k E 0 φ = s.Z * (k.alpha * k.hbarc / s.mc2) ^ 2 := by
  have hsc : s.Z * (k.alpha * k.hbarc / s.mc2) ^ 2 = s.scale k := by
    unfold scale; ring
  rw [hsc]
  constructor
  · have hc : ContinuousAt (fun E => s.dOmega k E θ φ) 0 := by
      have h0 : ContinuousAt (fun E => EpOverE k E θ) 0 := by
        unfold EpOverE
        exact continuousAt_const.div (by fun_prop) (by simp)
      have h1 : EpOverE k 0 θ ≠ 0 := by simp [EpOverE]
      unfold dOmega
      fun_prop (disch := assumption)
    have := hc.tendsto
    rwa [show s.dOmega k 0 θ φ = s.scale k * (1 - sin θ ^ 2 * cos φ ^ 2) by simp [dOmega, EpOverE]; ring] at this
  · intro E
    simp [dOmega, EpOverE]
    ring

example : (electron exConst 1).dOmega exConst 5 0 2 = 1 * (exConst.alpha * exConst.hbarc / exConst.me) ^ 2 :=
  (C109_thomson_differential exConst (electron exConst 1) 0 2).2 5

/-- C109, high energies: the total cross section, in units of pi Z r^2 with the classical radius r, times x = E / m c^2,
differs from ln (2 x) by an amount that tends to 1/2. -/
theorem C109_high_energy (k : PhysConst) (s : KN) (hZ : 0 < s.Z) (hm : 0 < s.mc2) :
    Tendsto (fun E => s.total k E / (π * (s.Z * (k.alpha * k.hbarc / s.mc2) ^ 2)) * (E / s.mc2) - log (2 * (E / s.mc2))) atTop
      (𝓝 (1 / 2)) := by
  have hsc : s.Z * (k.alpha * k.hbarc / s.mc2) ^ 2 = s.scale k := by
    unfold scale; field_simp
  have hs := scale_pos k s hZ hm
  rw [hsc]
  have ht : Tendsto (fun E : ℝ => E / s.mc2) atTop atTop := tendsto_id.atTop_div_const hm
  refine (high_limit.comp ht).congr' ?_
  filter_upwards [eventually_gt_atTop 0] with E hE
  have hx := div_pos hE hm
  simp only [Function.comp, total]
  generalize E / s.mc2 = x at hx
  congr 1
  have := pi_pos
  rw [show x ^ (-3 : ℤ) = x ^ (-2 : ℤ) * x⁻¹ by rw [← zpow_neg_one, ← zpow_add₀ hx.ne']; norm_num]
  field_simp

example : 0 < (electron exConst 82).Z ∧ 0 < (electron exConst 82).mc2 := by
  norm_num [electron, exConst]

/-- C109: so the total cross section tends to zero, but slower than 1 / E. -/
theorem C109_vanishes (k : PhysConst) (s : KN) (hZ : 0 < s.Z) (hm : 0 < s.mc2) :
    Tendsto (s.total k) atTop (𝓝 0) ∧ Tendsto (fun E => s.total k E * E) atTop atTop := by
  have h := C109_high_energy k s hZ hm
  set c := π * (s.Z * (k.alpha * k.hbarc / s.mc2) ^ 2) with hc
  have hcp : 0 < c := by
    have := k.alpha_pos; have := k.hbarc_pos; have := pi_pos
    positivity
  have ht : Tendsto (fun E : ℝ => E / s.mc2) atTop atTop := tendsto_id.atTop_div_const hm
  have hx2 : Tendsto (fun E : ℝ => 2 * (E / s.mc2)) atTop atTop := ht.const_mul_atTop two_pos
  have hlog : Tendsto (fun E : ℝ => log (2 * (E / s.mc2))) atTop atTop := tendsto_log_atTop.comp hx2
  constructor
  · have h1 : Tendsto (fun E : ℝ => log (2 * (E / s.mc2)) / (2 * (E / s.mc2))) atTop (𝓝 0) := by
      have := isLittleO_log_id_atTop.tendsto_div_nhds_zero.comp hx2
      simpa [Function.comp_def] using this
    have h2 := ((h.div_atTop ht).add (h1.const_mul 2)).const_mul c
    rw [show c * (0 + 2 * 0) = 0 by ring] at h2
    refine h2.congr' ?_
    filter_upwards [eventually_gt_atTop 0] with E hE
    have hx := div_pos hE hm
    generalize E / s.mc2 = x at hx ⊢
    field_simp
    ring
  · have h1 := (h.add_atTop hlog).const_mul_atTop (mul_pos hcp hm)
    refine h1.congr fun E => ?_
    have := hm.ne'
    field_simp
    ring

example : 0 < (electron exConst 82).Z ∧ 0 < (electron exConst 82).mc2 := by
  norm_num [electron, exConst]

end Ries
