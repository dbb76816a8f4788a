import Verif.Model.Debye
import Mathlib.Analysis.SpecialFunctions.Integrals.Basic
import Mathlib.Analysis.SpecialFunctions.ExpDeriv
import Mathlib.Analysis.SpecialFunctions.Arsinh
import Mathlib.Analysis.Calculus.Deriv.MeanValue

/-! # Analysis of the Debye integrand -/

open MeasureTheory Set

namespace Ries

/-- occupation number plus one half -/
noncomputable def phi (x : ℝ) : ℝ := 1 / (Real.exp x - 1) + 0.5

theorem exp_sub_one_pos {x : ℝ} (hx : 0 < x) : 0 < Real.exp x - 1 := by
  have := Real.add_one_lt_exp hx.ne'
  linarith

theorem phi_lt {x : ℝ} (hx : 0 < x) : phi x < 1 / x + 0.5 := by
  unfold phi
  have := Real.add_one_lt_exp hx.ne'
  have : 1 / (Real.exp x - 1) < 1 / x := one_div_lt_one_div_of_lt hx (by linarith)
  linarith

theorem half_lt_phi {x : ℝ} (hx : 0 < x) : 0.5 < phi x := by
  unfold phi
  have := one_div_pos.2 (exp_sub_one_pos hx)
  linarith

/-- a function with nonnegative derivative on the positive axis -/
theorem nonneg_of_deriv {f f' : ℝ → ℝ} (hd : ∀ x, HasDerivAt f (f' x) x) (h0 : f 0 = 0) (hp : ∀ x, 0 < x → 0 < f' x) {x : ℝ}
    (hx : 0 < x) : 0 < f x := by
  have hc : Continuous f := continuous_iff_continuousAt.2 fun x => (hd x).continuousAt
  have := strictMonoOn_of_deriv_pos (convex_Ici (0 : ℝ)) hc.continuousOn (by
    intro y hy
    rw [interior_Ici] at hy
    rw [(hd y).deriv]
    exact hp y hy)
  have h := this (mem_Ici.2 le_rfl) (mem_Ici.2 hx.le) hx
  rwa [h0] at h

theorem inv_lt_phi {x : ℝ} (hx : 0 < x) : 1 / x < phi x := by
  have key : 0 < x * (Real.exp x + 1) - 2 * (Real.exp x - 1) := by
    refine nonneg_of_deriv (f := fun x => x * (Real.exp x + 1) - 2 * (Real.exp x - 1))
      (f' := fun x => 1 + (x - 1) * Real.exp x) ?_ (by simp) ?_ hx
    · intro x
      have h1 := (hasDerivAt_id x).mul ((Real.hasDerivAt_exp x).add_const 1)
      have h2 := ((Real.hasDerivAt_exp x).sub_const 1).const_mul 2
      refine (h1.sub h2).congr_deriv ?_
      simp; ring
    · intro y hy
      have h1 : -y + 1 < Real.exp (-y) := Real.add_one_lt_exp (by linarith)
      have h2 : Real.exp (-y) * Real.exp y = 1 := by rw [← Real.exp_add]; simp
      have h3 := Real.exp_pos y
      nlinarith
  have he := exp_sub_one_pos hx
  have e : phi x = (Real.exp x + 1) / (2 * (Real.exp x - 1)) := by
    unfold phi; field_simp; ring
  rw [e, div_lt_div_iff₀ hx (by linarith)]
  linarith

theorem phi_lt_pade {x : ℝ} (hx : 0 < x) : phi x < 1 / x + x / 12 := by
  have k2 : ∀ y, 0 < y → 0 < Real.exp y * (y ^ 2 - 2 * y + 2) - 2 := fun y hy =>
    nonneg_of_deriv (f := fun y => Real.exp y * (y ^ 2 - 2 * y + 2) - 2) (f' := fun y => Real.exp y * y ^ 2) (by
      intro x
      have h1 := ((hasDerivAt_pow 2 x).sub ((hasDerivAt_id x).const_mul 2)).add_const 2
      refine (((Real.hasDerivAt_exp x).mul h1).sub_const 2).congr_deriv ?_
      simp; ring) (by simp) (fun y hy => by positivity) hy
  have k1 : ∀ y, 0 < y → 0 < Real.exp y * (y ^ 2 - 4 * y + 6) - (2 * y + 6) := fun y hy =>
    nonneg_of_deriv (f := fun y => Real.exp y * (y ^ 2 - 4 * y + 6) - (2 * y + 6))
      (f' := fun y => Real.exp y * (y ^ 2 - 2 * y + 2) - 2) (by
      intro x
      have h1 := ((hasDerivAt_pow 2 x).sub ((hasDerivAt_id x).const_mul 4)).add_const 6
      have h2 := ((hasDerivAt_id x).const_mul 2).add_const 6
      refine (((Real.hasDerivAt_exp x).mul h1).sub h2).congr_deriv ?_
      simp; ring) (by simp) k2 hy
  have k0 : 0 < Real.exp x * (x ^ 2 - 6 * x + 12) - (x ^ 2 + 6 * x + 12) :=
    nonneg_of_deriv (f := fun y => Real.exp y * (y ^ 2 - 6 * y + 12) - (y ^ 2 + 6 * y + 12))
      (f' := fun y => Real.exp y * (y ^ 2 - 4 * y + 6) - (2 * y + 6)) (by
      intro x
      have h1 := ((hasDerivAt_pow 2 x).sub ((hasDerivAt_id x).const_mul 6)).add_const 12
      have h2 := ((hasDerivAt_pow 2 x).add ((hasDerivAt_id x).const_mul 6)).add_const 12
      refine (((Real.hasDerivAt_exp x).mul h1).sub h2).congr_deriv ?_
      simp; ring) (by simp) k1 hx
  have he := exp_sub_one_pos hx
  have e : phi x = (Real.exp x + 1) / (2 * (Real.exp x - 1)) := by
    unfold phi; field_simp; ring
  have e2 : 1 / x + x / 12 = (12 + x ^ 2) / (12 * x) := by field_simp
  rw [e, e2, div_lt_div_iff₀ (by linarith) (by linarith)]
  nlinarith

theorem phi_anti {x y : ℝ} (hx : 0 < x) (hxy : x < y) : phi y < phi x := by
  unfold phi
  have : 1 / (Real.exp y - 1) < 1 / (Real.exp x - 1) :=
    one_div_lt_one_div_of_lt (exp_sub_one_pos hx) (by linarith [Real.exp_lt_exp.2 hxy])
  linarith

/-- `x φ(x)` increases -/
theorem mul_phi_mono {x y : ℝ} (hx : 0 < x) (hxy : x < y) : x * phi x < y * phi y := by
  have hd : ∀ z, 0 < z → HasDerivAt (fun z => z * phi z)
      ((Real.exp (2 * z) - 1 - 2 * z * Real.exp z) / (2 * (Real.exp z - 1) ^ 2)) z := by
    intro z hz
    have he := exp_sub_one_pos hz
    have h1 : HasDerivAt (fun z => (Real.exp z - 1)⁻¹) (-(Real.exp z) / (Real.exp z - 1) ^ 2) z :=
      ((Real.hasDerivAt_exp z).sub_const 1).inv he.ne'
    have h2 := (hasDerivAt_id z).mul (h1.add_const 0.5)
    have h3 : (fun z => z * phi z) = (id * fun z => (Real.exp z - 1)⁻¹ + 0.5) := by
      funext z; simp [phi]
    rw [h3]
    refine h2.congr_deriv ?_
    have e2 : Real.exp (2 * z) = Real.exp z ^ 2 := by rw [← Real.exp_nat_mul]; norm_num
    rw [e2]
    simp only [id]
    field_simp
    ring
  have hm := strictMonoOn_of_deriv_pos (f := fun z => z * phi z) (convex_Ioi (0 : ℝ))
    (fun z hz => (hd z hz).continuousAt.continuousWithinAt) (by
    intro z hz
    rw [interior_Ioi] at hz
    have hz : 0 < z := hz
    rw [(hd z hz).deriv]
    have he := exp_sub_one_pos hz
    have hs : z < Real.sinh z := Real.self_lt_sinh_iff.2 hz
    rw [Real.sinh_eq] at hs
    have e2 : Real.exp (2 * z) = Real.exp z * Real.exp z := by rw [← Real.exp_add]; congr 1; ring
    have e3 : Real.exp (-z) * Real.exp z = 1 := by rw [← Real.exp_add]; simp
    have h3 := Real.exp_pos z
    apply div_pos _ (by positivity)
    rw [e2]
    nlinarith)
  exact hm (mem_Ioi.2 hx) (mem_Ioi.2 (hx.trans hxy)) hxy

/-- the integrand in the variable scaled to the unit interval -/
noncomputable def unitIntegrand (c s : ℝ) : ℝ := s ^ 3 * phi (s * c)

theorem debyeIntegrand_continuousOn : ContinuousOn debyeIntegrand (Ici 0) := by
  intro t ht
  rcases (mem_Ici.1 ht).eq_or_lt with rfl | hpos
  · have h0 : debyeIntegrand 0 = 0 := by simp [debyeIntegrand]
    unfold ContinuousWithinAt
    rw [h0]
    have hb : Filter.Tendsto (fun t : ℝ => t ^ 2 + t ^ 3 * 0.5) (nhdsWithin 0 (Ici 0)) (nhds 0) := by
      have : Continuous fun t : ℝ => t ^ 2 + t ^ 3 * 0.5 := by fun_prop
      have h := this.tendsto 0
      simp at h
      exact h.mono_left nhdsWithin_le_nhds
    refine squeeze_zero' ?_ ?_ hb
    · filter_upwards [self_mem_nhdsWithin] with t ht
      rcases (mem_Ici.1 ht).eq_or_lt with rfl | hp
      · rw [h0]
      · have := half_lt_phi hp
        exact mul_nonneg (by positivity) (by unfold phi at this; linarith)
    · filter_upwards [self_mem_nhdsWithin] with t ht
      rcases (mem_Ici.1 ht).eq_or_lt with rfl | hp
      · rw [h0]; simp
      · have := phi_lt hp
        have e : debyeIntegrand t = t ^ 3 * phi t := rfl
        rw [e]
        calc t ^ 3 * phi t ≤ t ^ 3 * (1 / t + 0.5) := mul_le_mul_of_nonneg_left this.le (by positivity)
          _ = _ := by field_simp
  · have := exp_sub_one_pos hpos
    apply ContinuousAt.continuousWithinAt
    unfold debyeIntegrand
    have hc : ContinuousAt (fun t => 1 / (Real.exp t - 1) + 0.5) t := by
      refine ContinuousAt.add (ContinuousAt.div continuousAt_const ?_ this.ne') continuousAt_const
      exact (Real.continuous_exp.continuousAt).sub continuousAt_const
    exact (continuous_pow 3).continuousAt.mul hc

theorem unitIntegrand_eq {c : ℝ} (hc : 0 < c) (s : ℝ) : unitIntegrand c s = debyeIntegrand (s * c) / c ^ 3 := by
  unfold unitIntegrand debyeIntegrand phi
  field_simp

theorem unitIntegrand_continuousOn {c : ℝ} (hc : 0 < c) : ContinuousOn (unitIntegrand c) (Icc 0 1) := by
  rw [funext (unitIntegrand_eq hc)]
  refine ContinuousOn.div_const ?_ _
  refine debyeIntegrand_continuousOn.comp (by fun_prop) ?_
  intro s hs
  exact mul_nonneg hs.1 hc.le

theorem debye_eq {T TD : ℝ} (hT : 0 < T) (hD : 0 < TD) :
    debyeTemperature T TD = .ok (3 * TD * ∫ s in (0 : ℝ)..1, unitIntegrand (TD / T) s) := by
  unfold debyeTemperature
  rw [if_neg hD.ne', if_neg hT.ne']
  have hc : 0 < TD / T := div_pos hD hT
  rw [funext (unitIntegrand_eq hc), intervalIntegral.integral_div, intervalIntegral.integral_comp_mul_right _ hc.ne']
  simp only [zero_mul, one_mul, smul_eq_mul, Except.ok.injEq]
  field_simp

/-- comparison of integrals with the weight `s ^ 3` -/
theorem unit_lt {f g : ℝ → ℝ} (hf : ContinuousOn f (Icc 0 1)) (hg : ContinuousOn g (Icc 0 1))
    (h : ∀ s, 0 < s → s ≤ 1 → f s < g s) : ∫ s in (0 : ℝ)..1, f s < ∫ s in (0 : ℝ)..1, g s :=
  intervalIntegral.integral_lt_integral_of_continuousOn_of_le_of_exists_lt one_pos hf hg
    (fun s hs => (h s hs.1 hs.2).le) ⟨1, ⟨zero_le_one, le_rfl⟩, h 1 one_pos le_rfl⟩

end Ries
