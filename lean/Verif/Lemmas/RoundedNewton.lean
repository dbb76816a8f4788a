import Verif.Model.RoundedNewton
import Verif.Lemmas.Newton
import Verif.Spec.Rounded

/-! # Accuracy of a converged Newton iteration in floating point -/

namespace Ries

/-- a distribution function whose density is at most `M` -/
theorem GoodCDF.lipschitz {F p : ℝ → ℝ} (h : GoodCDF F p) {M : ℝ} (hM : ∀ x, p x ≤ M) (x y : ℝ) : |F x - F y| ≤ M * |x - y| := by
  have key : ∀ a b : ℝ, a < b → |F b - F a| ≤ M * |b - a| := by
    intro a b hab
    obtain ⟨ξ, -, -, e⟩ := h.slope hab
    rw [e, abs_mul, abs_of_pos (h.pos ξ)]
    exact mul_le_mul_of_nonneg_right (hM ξ) (abs_nonneg _)
  rcases lt_trichotomy x y with hxy | rfl | hxy
  · rw [abs_sub_comm, abs_sub_comm x]; exact key _ _ hxy
  · simp
  · exact key _ _ hxy

section
variable {fl Fc pc F p : ℝ → ℝ} {u η M : ℝ}

/-- what is assumed about the arithmetic and the computed functions -/
structure NewtonNoise (fl Fc pc F p : ℝ → ℝ) (u η M : ℝ) : Prop where
  rounding : Rounding u fl
  u0 : 0 ≤ u
  u1 : u ≤ 1 / 1000
  η0 : 0 ≤ η
  η1 : η ≤ 1 / 1000
  good : GoodCDF F p
  peak : ∀ x, p x ≤ M
  cdf : ∀ x, |Fc x - F x| ≤ η
  pdf : ∀ x, |pc x - p x| ≤ η * M

theorem Rounding.inv (h : Rounding u fl) (hu : u ≤ 1 / 1000) (x : ℝ) : |x| ≤ 1.002 * |fl x| := by
  have h1 := h x
  have h2 : |x| ≤ |fl x - x| + |fl x| := by
    have := abs_sub_abs_le_abs_sub x (fl x)
    rw [abs_sub_comm] at this
    linarith
  have h3 : u * |x| ≤ 1 / 1000 * |x| := mul_le_mul_of_nonneg_right hu (abs_nonneg x)
  nlinarith [abs_nonneg (fl x)]

theorem Rounding.zero (h : Rounding u fl) (hu : u ≤ 1 / 1000) {x : ℝ} (hx : fl x = 0) : x = 0 := by
  have := h.inv hu x
  rw [hx, abs_zero, mul_zero] at this
  exact abs_eq_zero.1 (le_antisymm this (abs_nonneg x))

theorem NewtonNoise.M_pos (h : NewtonNoise fl Fc pc F p u η M) : 0 < M := (h.good.pos 0).trans_le (h.peak 0)

theorem NewtonNoise.pc_le (h : NewtonNoise fl Fc pc F p u η M) (x : ℝ) : |pc x| ≤ 1.001 * M := by
  have h1 := h.pdf x
  have h2 : |pc x| ≤ |pc x - p x| + |p x| := by
    have := abs_sub_abs_le_abs_sub (pc x) (p x)
    linarith
  rw [abs_of_pos (h.good.pos x)] at h2
  have h3 := h.peak x
  have h4 : η * M ≤ 1 / 1000 * M := mul_le_mul_of_nonneg_right h.η1 h.M_pos.le
  linarith

theorem newtonTol_fl (h : NewtonNoise fl Fc pc F p u η M) : fl newtonTol ≤ 1.001 * newtonTol := by
  have h1 := (abs_le.1 (h.rounding newtonTol)).2
  rw [abs_of_pos newtonTol_pos] at h1
  have : u * newtonTol ≤ 1 / 1000 * newtonTol := mul_le_mul_of_nonneg_right h.u1 newtonTol_pos.le
  linarith

/-- the residual from the size of the computed step -/
theorem NewtonNoise.residual (h : NewtonNoise fl Fc pc F p u η M) {q x : ℝ} (hp : pc x ≠ 0) {t : ℝ}
    (ht : |fl (fl (Fc x - q) / pc x)| ≤ t) : |F x - q| ≤ 1.0051 * M * t + η := by
  have h1 := h.rounding.inv h.u1 (Fc x - q)
  have h2 := h.rounding.inv h.u1 (fl (Fc x - q) / pc x)
  rw [abs_div, div_le_iff₀ (abs_pos.2 hp)] at h2
  have h3 := h.pc_le x
  have ht0 : 0 ≤ t := (abs_nonneg _).trans ht
  have h4 : |fl (Fc x - q)| ≤ 1.002 * t * (1.001 * M) := by
    refine h2.trans ?_
    have := mul_le_mul (mul_le_mul_of_nonneg_left ht (by norm_num : (0 : ℝ) ≤ 1.002)) h3 (abs_nonneg _) (by positivity)
    exact this
  have h5 : |F x - q| ≤ |Fc x - F x| + |Fc x - q| := by
    have := abs_sub_le (F x) (Fc x) q
    rwa [abs_sub_comm (F x) (Fc x)] at this
  have h6 := h.cdf x
  have hMt : 0 ≤ M * t := mul_nonneg h.M_pos.le ht0
  nlinarith

/-- distance of the rounded new iterate -/
theorem NewtonNoise.moved (h : NewtonNoise fl Fc pc F p u η M) (x dp : ℝ) :
    |(x - dp) - fl (x - dp)| ≤ 1.002 * u * |fl (x - dp)| := by
  have h1 := h.rounding (x - dp)
  have h2 := h.rounding.inv h.u1 (x - dp)
  rw [abs_sub_comm]
  refine h1.trans ?_
  calc u * |x - dp| ≤ u * (1.002 * |fl (x - dp)|) := mul_le_mul_of_nonneg_left h2 h.u0
    _ = 1.002 * u * |fl (x - dp)| := by ring

/-- the bound that a converged component satisfies -/
def NewtonBound (F : ℝ → ℝ) (u η M q x : ℝ) : Prop := |F x - q| ≤ M * (2.02 * newtonTol + 1.01 * u * |x|) + η

theorem NewtonNoise.zero_bound (h : NewtonNoise fl Fc pc F p u η M) {q x : ℝ} (hx : fl (Fc x - q) = 0) : NewtonBound F u η M q x := by
  have h1 : Fc x = q := sub_eq_zero.1 (h.rounding.zero h.u1 hx)
  have h2 := h.cdf x
  rw [h1, abs_sub_comm] at h2
  have := h.M_pos
  have := newtonTol_pos
  have := h.u0
  have : 0 ≤ M * (2.02 * newtonTol + 1.01 * u * |x|) := by positivity
  unfold NewtonBound
  linarith

/-- array routine: the step is short -/
theorem NewtonNoise.step_bound (h : NewtonNoise fl Fc pc F p u η M) {q x : ℝ} (hp : pc x ≠ 0)
    (hs : |fl (fl (Fc x - q) / pc x)| < fl newtonTol) : NewtonBound F u η M q (fl (x - fl (fl (Fc x - q) / pc x))) := by
  set dp := fl (fl (Fc x - q) / pc x) with hdp
  have ht : |dp| ≤ 1.001 * newtonTol := hs.le.trans (newtonTol_fl h)
  have h1 := h.residual hp ht
  have h2 := h.moved x dp
  have h3 := h.good.lipschitz h.peak (fl (x - dp)) x
  have h4 : |fl (x - dp) - x| ≤ 1.002 * u * |fl (x - dp)| + 1.001 * newtonTol := by
    have e : fl (x - dp) - x = -((x - dp) - fl (x - dp)) - dp := by ring
    rw [e]
    have := abs_sub (-((x - dp) - fl (x - dp))) dp
    rw [abs_neg] at this
    linarith
  have h5 : M * |fl (x - dp) - x| ≤ M * (1.002 * u * |fl (x - dp)| + 1.001 * newtonTol) := mul_le_mul_of_nonneg_left h4 h.M_pos.le
  have h6 : |F (fl (x - dp)) - q| ≤ |F (fl (x - dp)) - F x| + |F x - q| := abs_sub_le _ _ _
  have hMt : 0 ≤ M * newtonTol := mul_nonneg h.M_pos.le newtonTol_pos.le
  have hMu : 0 ≤ M * (u * |fl (x - dp)|) := mul_nonneg h.M_pos.le (mul_nonneg h.u0 (abs_nonneg _))
  unfold NewtonBound
  nlinarith

/-- scalar routine: the iterates are close -/
theorem NewtonNoise.close_bound (h : NewtonNoise fl Fc pc F p u η M) {q x : ℝ} (hp : pc x ≠ 0)
    (hs : |fl (fl (x - fl (fl (Fc x - q) / pc x)) - x)| ≤ fl newtonTol) :
    NewtonBound F u η M q (fl (x - fl (fl (Fc x - q) / pc x))) := by
  set dp := fl (fl (Fc x - q) / pc x) with hdp
  set y := fl (x - dp) with hy
  have hτ : |y - x| ≤ 1.0031 * newtonTol := by
    have h1 := h.rounding.inv h.u1 (y - x)
    have h2 := newtonTol_fl h
    have := newtonTol_pos
    nlinarith
  have h2 := h.moved x dp
  rw [← hy] at h2
  have ht : |dp| ≤ 1.0031 * newtonTol + 1.002 * u * |y| := by
    have e : dp = -((x - dp) - y) - (y - x) := by ring
    rw [e]
    have := abs_sub (-((x - dp) - y)) (y - x)
    rw [abs_neg] at this
    linarith
  have h1 := h.residual hp ht
  have h3 := h.good.lipschitz h.peak y x
  have h5 : M * |y - x| ≤ M * (1.0031 * newtonTol) := mul_le_mul_of_nonneg_left hτ h.M_pos.le
  have h6 : |F y - q| ≤ |F y - F x| + |F x - q| := abs_sub_le _ _ _
  have hMt : 0 ≤ M * newtonTol := mul_nonneg h.M_pos.le newtonTol_pos.le
  have hMu : 0 ≤ M * (u * |y|) := mul_nonneg h.M_pos.le (mul_nonneg h.u0 (abs_nonneg _))
  unfold NewtonBound
  nlinarith

theorem NewtonNoise.scalar (h : NewtonNoise fl Fc pc F p u η M) (q : ℝ) : ∀ (fuel : ℕ) (x0 x : ℝ),
    newtonScalarR fl Fc pc q fuel x0 = .ok x → NewtonBound F u η M q x := by
  intro fuel
  induction fuel with
  | zero => intro x0 x hx; simp [newtonScalarR] at hx
  | succ n ih =>
    intro x0 x hx
    unfold newtonScalarR at hx
    split_ifs at hx with h1 h2
    · cases hx; exact h.zero_bound h1
    · dsimp only at hx
      split_ifs at hx with h3
      · cases hx; exact h.close_bound h2 h3
      · exact ih _ _ hx

/-- quantiles are kept, and components without failure flag satisfy the bound -/
theorem NewtonNoise.loop (h : NewtonNoise fl Fc pc F p u η M) : ∀ (fuel : ℕ) (st : List NEl),
    (∀ e ∈ st, e.failed = false → NewtonBound F u η M e.q e.x) →
    (newtonLoopR fl Fc pc fuel st).map (·.q) = st.map (·.q) ∧
    ∀ e ∈ newtonLoopR fl Fc pc fuel st, e.failed = false → NewtonBound F u η M e.q e.x := by
  have hstep : ∀ e : NEl, (e.failed = false → NewtonBound F u η M e.q e.x) →
      ((NEl.stepR fl Fc pc e).failed = false → NewtonBound F u η M (NEl.stepR fl Fc pc e).q (NEl.stepR fl Fc pc e).x) := by
    intro e he hf
    unfold NEl.stepR at hf ⊢
    split_ifs at hf ⊢ with h1
    · exact he hf
    · simp only [decide_eq_false_iff_not, not_le] at hf
      exact h.step_bound h1 hf
  have hq : ∀ e : NEl, (NEl.stepR fl Fc pc e).q = e.q := by
    intro e; unfold NEl.stepR; split_ifs <;> rfl
  intro fuel
  induction fuel with
  | zero => intro st hst; exact ⟨rfl, hst⟩
  | succ n ih =>
    intro st hst
    have hst' : ∀ e ∈ st.map (NEl.stepR fl Fc pc), e.failed = false → NewtonBound F u η M e.q e.x := by
      intro e he
      obtain ⟨e0, he0, rfl⟩ := List.mem_map.1 he
      exact hstep e0 (hst e0 he0)
    have hq' : (st.map (NEl.stepR fl Fc pc)).map (·.q) = st.map (·.q) := by
      rw [List.map_map]
      exact List.map_congr_left fun e _ => hq e
    unfold newtonLoopR
    split_ifs with h1 h2
    · refine ⟨by simp [List.map_map, Function.comp_def], fun e he _ => ?_⟩
      obtain ⟨e0, he0, rfl⟩ := List.mem_map.1 he
      exact h.zero_bound (h1 e0 he0)
    · refine ⟨by simp [List.map_map, Function.comp_def], fun e he hf => ?_⟩
      obtain ⟨e0, he0, rfl⟩ := List.mem_map.1 he
      exact hst e0 he0 hf
    · dsimp only
      split_ifs with h3
      · exact ⟨hq', hst'⟩
      · obtain ⟨a, b⟩ := ih _ hst'
        exact ⟨a.trans hq', b⟩

end

/-! ## Without rounding -/

theorem NEl.stepR_id (F p : ℝ → ℝ) (e : NEl) : NEl.stepR id F p e = NEl.step F p e := rfl

theorem newtonLoopR_id (F p : ℝ → ℝ) : ∀ (fuel : ℕ) (st : List NEl), newtonLoopR id F p fuel st = newtonLoop F p fuel st := by
  intro fuel
  induction fuel with
  | zero => intro st; rfl
  | succ n ih =>
    intro st
    unfold newtonLoopR newtonLoop
    have e : st.map (NEl.stepR id F p) = st.map (NEl.step F p) := rfl
    simp only [id, e, ih]

theorem newtonScalarR_id (F p : ℝ → ℝ) (q : ℝ) : ∀ (fuel : ℕ) (x : ℝ), newtonScalarR id F p q fuel x = newtonScalar F p q fuel x := by
  intro fuel
  induction fuel with
  | zero => intro st; rfl
  | succ n ih =>
    intro x
    unfold newtonScalarR newtonScalar
    simp only [id, ih]

end Ries
