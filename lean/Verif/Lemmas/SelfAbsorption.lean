import Verif.Lemmas.VoigtLimits
import Verif.Lemmas.Coverage
import Mathlib.Analysis.SpecialFunctions.Integrals.Basic
import Mathlib.Analysis.Convex.SpecificFunctions.Basic

/-! # Lemmas on the self absorption of a resonance -/

open MeasureTheory Set Filter

namespace Ries

theorem absorbed_inner (s ρA ρS : ℝ) :
    ∫ ρ in (0 : ℝ)..ρS, s * Real.exp (-s * (ρA + ρ)) = Real.exp (-s * ρA) * (1 - Real.exp (-s * ρS)) := by
  rw [intervalIntegral.integral_eq_sub_of_hasDerivAt (f := fun ρ => -Real.exp (-s * (ρA + ρ)))]
  · rw [mul_add, mul_add, Real.exp_add, Real.exp_add]; simp; ring
  · intro ρ _
    have h1 : HasDerivAt (fun ρ => Real.exp (-s * (ρA + ρ))) (Real.exp (-s * (ρA + ρ)) * (-s * 1)) ρ :=
      (((hasDerivAt_id ρ).const_add ρA).const_mul (-s)).exp
    exact h1.neg.congr_deriv (by ring)
  · exact Continuous.intervalIntegrable (by fun_prop) _ _

/-- photons absorbed in the scatterer without an absorber, at the cross section `s` -/
noncomputable def scat (s ρS : ℝ) : ℝ := 1 - Real.exp (-s * ρS)

theorem scat_pos {s ρS : ℝ} (hs : 0 < s) (hρ : 0 < ρS) : 0 < scat s ρS := by
  have : Real.exp (-s * ρS) < 1 := Real.exp_lt_one_iff.2 (by nlinarith)
  simp only [scat]; linarith

variable {σ : ℝ → ℝ} {a b : ℝ}

theorem scat_integral_pos (hσ : Continuous σ) (hp : ∀ E, 0 < σ E) (hab : a < b) {ρS : ℝ} (hS : 0 < ρS) :
    0 < ∫ E in a..b, scat (σ E) ρS := by
  refine intervalIntegral.intervalIntegral_pos_of_pos (Continuous.intervalIntegrable (by unfold scat; fun_prop) _ _)
    (fun E => scat_pos (hp E) hS) hab

theorem num_lt (hσ : Continuous σ) (hp : ∀ E, 0 < σ E) (hab : a < b) {ρS : ℝ} (hS : 0 < ρS) {x y : ℝ} (hxy : x < y) :
    ∫ E in a..b, Real.exp (-σ E * y) * scat (σ E) ρS < ∫ E in a..b, Real.exp (-σ E * x) * scat (σ E) ρS := by
  have hc : ∀ z : ℝ, Continuous fun E => Real.exp (-σ E * z) * scat (σ E) ρS := fun z => by unfold scat; fun_prop
  have hlt : ∀ E, Real.exp (-σ E * y) * scat (σ E) ρS < Real.exp (-σ E * x) * scat (σ E) ρS := fun E =>
    mul_lt_mul_of_pos_right (Real.exp_lt_exp.2 (by nlinarith [hp E])) (scat_pos (hp E) hS)
  exact intervalIntegral.integral_lt_integral_of_continuousOn_of_le_of_exists_lt hab (hc y).continuousOn (hc x).continuousOn
    (fun E _ => (hlt E).le) ⟨a, ⟨le_rfl, hab.le⟩, hlt a⟩

theorem num_tendsto (hσ : Continuous σ) (hp : ∀ E, 0 < σ E) (hab : a < b) {ρS : ℝ} (hS : 0 < ρS) :
    Tendsto (fun x => ∫ E in a..b, Real.exp (-σ E * x) * scat (σ E) ρS) atTop (nhds 0) := by
  obtain ⟨E₀, -, hmin⟩ := isCompact_Icc.exists_isMinOn (nonempty_Icc.2 hab.le) hσ.continuousOn
  have hc : ∀ z : ℝ, Continuous fun E => Real.exp (-σ E * z) * scat (σ E) ρS := fun z => by unfold scat; fun_prop
  have hs : Continuous fun E => scat (σ E) ρS := by unfold scat; fun_prop
  refine tendsto_of_tendsto_of_tendsto_of_le_of_le' (h := fun x => Real.exp (-σ E₀ * x) * ∫ E in a..b, scat (σ E) ρS)
    tendsto_const_nhds ?_ (Eventually.of_forall fun x => ?_) ((eventually_ge_atTop 0).mono fun x hx => ?_)
  · have h1 : Tendsto (fun x => Real.exp (-σ E₀ * x)) atTop (nhds 0) :=
      Real.tendsto_exp_atBot.comp (tendsto_id.const_mul_atTop_of_neg (neg_lt_zero.2 (hp E₀)))
    simpa using h1.mul_const (∫ E in a..b, scat (σ E) ρS)
  · exact intervalIntegral.integral_nonneg hab.le fun E _ => mul_nonneg (Real.exp_pos _).le (scat_pos (hp E) hS).le
  · rw [← intervalIntegral.integral_const_mul]
    refine intervalIntegral.integral_mono_on hab.le ((hc x).intervalIntegrable _ _)
      ((continuous_const.mul hs).intervalIntegrable _ _) fun E hE => ?_
    refine mul_le_mul_of_nonneg_right (Real.exp_le_exp.2 ?_) (scat_pos (hp E) hS).le
    have : σ E₀ ≤ σ E := hmin hE
    nlinarith

/-- Photons with a small cross section contribute more in a thicker scatterer. -/
theorem scat_ratio {s t S S' : ℝ} (hs : 0 < s) (hst : s ≤ t) (hS : 0 < S) (hSS : S ≤ S') :
    scat t S' * scat s S ≤ scat s S' * scat t S := by
  have ht : 0 < t := hs.trans_le hst
  set D := S' - S with hD
  have hD0 : 0 ≤ D := by linarith
  have dec : ∀ u, scat u S' = scat u S + Real.exp (-u * S) * (1 - Real.exp (-u * D)) := by
    intro u
    have : Real.exp (-u * S') = Real.exp (-u * S) * Real.exp (-u * D) := by
      rw [← Real.exp_add]; congr 1; rw [hD]; ring
    simp only [scat, this]; ring
  have inc : ∀ u, scat u S = Real.exp (-u * S) * (Real.exp (u * S) - 1) := by
    intro u
    have : Real.exp (-u * S) * Real.exp (u * S) = 1 := by rw [← Real.exp_add]; simp
    simp only [scat, mul_sub, this, mul_one]
  have cvx : ∀ c : ℝ, Real.exp (c * s) ≤ s / t * Real.exp (c * t) + (1 - s / t) := by
    intro c
    have h0 : 0 ≤ s / t := by positivity
    have h1 : 0 ≤ 1 - s / t := by rw [sub_nonneg, div_le_one ht]; exact hst
    have := convexOn_exp.2 (mem_univ (c * t)) (mem_univ 0) h0 h1 (by ring)
    simp only [smul_eq_mul, mul_zero, add_zero, Real.exp_zero, mul_one] at this
    have e : s / t * (c * t) = c * s := by field_simp
    rwa [e] at this
  have c1 := cvx S
  have c2 := cvx (-D)
  have p1 : 0 ≤ Real.exp (t * S) - 1 := by
    have := Real.one_le_exp (show 0 ≤ t * S by positivity); linarith
  have p2 : 0 ≤ 1 - Real.exp (-t * D) := by
    have : Real.exp (-t * D) ≤ 1 := Real.exp_le_one_iff.2 (by nlinarith)
    linarith
  rw [dec t, dec s, inc t, inc s]
  rw [mul_comm S s, mul_comm S t] at c1
  rw [show -D * s = -s * D by ring, show -D * t = -t * D by ring] at c2
  have q := mul_pos (Real.exp_pos (-t * S)) (Real.exp_pos (-s * S))
  have k1 : (Real.exp (s * S) - 1) * (1 - Real.exp (-t * D)) ≤ s / t * (Real.exp (t * S) - 1) * (1 - Real.exp (-t * D)) :=
    mul_le_mul_of_nonneg_right (by linarith) p2
  have k2 : (Real.exp (t * S) - 1) * (s / t * (1 - Real.exp (-t * D))) ≤ (Real.exp (t * S) - 1) * (1 - Real.exp (-s * D)) :=
    mul_le_mul_of_nonneg_left (by linarith) p1
  have k3 : (Real.exp (s * S) - 1) * (1 - Real.exp (-t * D)) ≤ (Real.exp (t * S) - 1) * (1 - Real.exp (-s * D)) := by
    refine k1.trans (le_trans (le_of_eq ?_) k2); ring
  have k4 := mul_le_mul_of_nonneg_left k3 q.le
  linarith

theorem num_scatterer (hσ : Continuous σ) (hp : ∀ E, 0 < σ E) (hab : a < b) {S S' x : ℝ} (hS : 0 < S) (hSS : S ≤ S')
    (hx : 0 ≤ x) :
    (∫ E in a..b, Real.exp (-σ E * x) * scat (σ E) S) / (∫ E in a..b, scat (σ E) S) ≤
      (∫ E in a..b, Real.exp (-σ E * x) * scat (σ E) S') / (∫ E in a..b, scat (σ E) S') := by
  have hS' : 0 < S' := hS.trans_le hSS
  have dS := scat_integral_pos hσ hp hab hS
  have dS' := scat_integral_pos hσ hp hab hS'
  rcases hx.eq_or_lt with rfl | hx
  · simp [dS.ne', dS'.ne']
  set m := (∫ E in a..b, Real.exp (-σ E * x) * scat (σ E) S) / (∫ E in a..b, scat (σ E) S) with hm
  have hc : ∀ z w : ℝ, Continuous fun E => Real.exp (-σ E * z) * scat (σ E) w := fun z w => by unfold scat; fun_prop
  have hs : ∀ w : ℝ, Continuous fun E => scat (σ E) w := fun w => by unfold scat; fun_prop
  have hm0 : 0 < m := div_pos (intervalIntegral.intervalIntegral_pos_of_pos ((hc x S).intervalIntegrable _ _)
    (fun E => mul_pos (Real.exp_pos _) (scat_pos (hp E) hS)) hab) dS
  have hm1 : m < 1 := by
    rw [hm, div_lt_one dS]
    have := num_lt hσ hp hab hS hx
    simpa using this
  obtain ⟨t, ht0, ht⟩ : ∃ t, 0 < t ∧ Real.exp (-t * x) = m := by
    refine ⟨-Real.log m / x, div_pos (neg_pos.2 (Real.log_neg hm0 hm1)) hx, ?_⟩
    rw [show -(-Real.log m / x) * x = Real.log m by field_simp, Real.exp_log hm0]
  have zero : ∫ E in a..b, (Real.exp (-σ E * x) - m) * scat (σ E) S = 0 := by
    simp only [sub_mul]
    rw [intervalIntegral.integral_sub ((hc x S).intervalIntegrable _ _) (((hs S).intervalIntegrable _ _).const_mul m),
      intervalIntegral.integral_const_mul, hm, div_mul_cancel₀ _ dS.ne', sub_self]
  have key : ∀ E, scat t S' * ((Real.exp (-σ E * x) - m) * scat (σ E) S) ≤ scat t S * ((Real.exp (-σ E * x) - m) * scat (σ E) S') := by
    intro E
    rw [← ht]
    rcases le_total (σ E) t with h | h
    · have h1 := scat_ratio (hp E) h hS hSS
      have h2 : 0 ≤ Real.exp (-σ E * x) - Real.exp (-t * x) := sub_nonneg.2 (Real.exp_le_exp.2 (by nlinarith))
      nlinarith [mul_le_mul_of_nonneg_left h1 h2]
    · have h1 := scat_ratio ht0 h hS hSS
      have h2 : 0 ≤ Real.exp (-t * x) - Real.exp (-σ E * x) := sub_nonneg.2 (Real.exp_le_exp.2 (by nlinarith))
      nlinarith [mul_le_mul_of_nonneg_left h1 h2]
  have hci : ∀ w : ℝ, Continuous fun E => (Real.exp (-σ E * x) - m) * scat (σ E) w := fun w => by unfold scat; fun_prop
  have hint : scat t S' * 0 ≤ scat t S * ∫ E in a..b, (Real.exp (-σ E * x) - m) * scat (σ E) S' := by
    rw [← zero, ← intervalIntegral.integral_const_mul, ← intervalIntegral.integral_const_mul]
    exact intervalIntegral.integral_mono_on hab.le ((continuous_const.mul (hci S)).intervalIntegrable _ _)
      ((continuous_const.mul (hci S')).intervalIntegrable _ _) fun E _ => key E
  rw [mul_zero] at hint
  have hnn := nonneg_of_mul_nonneg_right hint (scat_pos ht0 hS)
  simp only [sub_mul] at hnn
  rw [intervalIntegral.integral_sub ((hc x S').intervalIntegrable _ _) (((hs S').intervalIntegrable _ _).const_mul m),
    intervalIntegral.integral_const_mul] at hnn
  rw [le_div_iff₀ dS']
  linarith

/-! ## the Voigt profile as a function of the energy -/

theorem coldVoigt_continuous_energy (er s : ℝ) {g : ℝ} (hg : 0 < g) : Continuous fun E => coldVoigt er g E s := by
  have hc : Continuous (cauchyPdf er g) := (cauchy_good er hg).cont
  refine continuous_of_dominated (bound := fun t => normPdf 0 1 t * cauchyPdf er g er) ?_ ?_ ?_ ?_
  · exact fun E => (coldVoigt_integrable er E s hg).aestronglyMeasurable
  · intro E
    refine Eventually.of_forall fun t => ?_
    have h1 := (normPdf_pos one_pos 0 t).le
    rw [Real.norm_of_nonneg (mul_nonneg h1 (cauchyPdf_pos hg _ _).le)]
    exact mul_le_mul_of_nonneg_left ((cauchy_peaked er hg).le_peak _) h1
  · exact (norm_good 0 one_pos).integrable.mul_const _
  · exact Eventually.of_forall fun t => continuous_const.mul
      (hc.comp (continuous_id.sub continuous_const))

theorem coldVoigt_pos (er E s : ℝ) {g : ℝ} (hg : 0 < g) : 0 < coldVoigt er g E s := by
  have hpos : ∀ t, 0 < normPdf 0 1 t * cauchyPdf er g (E - s * t) := fun t => mul_pos (normPdf_pos one_pos _ _) (cauchyPdf_pos hg _ _)
  unfold coldVoigt
  rw [integral_pos_iff_support_of_nonneg (fun t => (hpos t).le) (coldVoigt_integrable er E s hg)]
  have : Function.support (fun t => normPdf 0 1 t * cauchyPdf er g (E - s * t)) = Set.univ := by
    ext t; simpa using mul_ne_zero_iff.1 (hpos t).ne'
  rw [this]; simp

/-- The ends of the coverage interval are different if the coverage is larger than the error of the numerical inversion. -/
theorem pv_coverage_lt {r : Reso} {w d : ℝ} (h : PV.Ok w d) (hppf : r.dist.ppf = (mkPV r.er w d).toDist.ppf)
    (hcdf : r.dist.cdf = (mkPV r.er w d).toDist.cdf) (hp : r.params = []) {c : ℝ} (h0 : 0 < c) (h1 : c < 1)
    (hc : 3.8e-8 < c * max w (2 * Real.sqrt (Real.log 2) * d)) :
    ∃ (ci : Reso.Cov) (lo hi : ℝ), r.coverageInterval c = .ok ci ∧ ci.lo = .fin lo ∧ ci.hi = .fin hi ∧ lo + hi = 2 * r.er ∧
      lo < hi := by
  obtain ⟨ci, lo, hi, e1, e2, e3, e4, e5, hcase⟩ := pv_coverage h hppf hcdf hp h0.le h1
  refine ⟨ci, lo, hi, e1, e2, e3, e4, ?_⟩
  suffices lo ≠ r.er by
    have := lt_of_le_of_ne e5 this
    linarith
  intro hlo
  rcases hcase with ⟨q1, -⟩ | ⟨-, x, y, hx, hx1, hy1⟩
  · have a1 := q1.1
    have hmid : (mkPV r.er w d).cdfR r.er = 1 / 2 := h.half
    rw [hlo, hmid, abs_of_nonneg (by linarith)] at a1
    have el := h.error_le (er := r.er)
    have hM : 0 < max w (2 * Real.sqrt (Real.log 2) * d) := by
      by_contra hM
      nlinarith
    have : (1.9e-8 : ℝ) / max w (2 * Real.sqrt (Real.log 2) * d) < c / 2 := by
      rw [div_lt_iff₀ hM]; linarith
    linarith
  · have hx2 : x < r.er := by
      have := (norm_good r.er (h.normScale_pos (er := r.er))).strictMono.lt_iff_lt (a := x) (b := r.er)
      rw [← this, hx1, (norm_good r.er h.normScale_pos).half_of_symm r.er (norm_peaked r.er h.normScale_pos).symm]
      linarith
    have hy2 : y < r.er := by
      have := (cauchy_good r.er (h.cauchyScale_pos (er := r.er))).strictMono.lt_iff_lt (a := y) (b := r.er)
      rw [← this, hy1, (cauchy_good r.er h.cauchyScale_pos).half_of_symm r.er (cauchy_peaked r.er h.cauchyScale_pos).symm]
      linarith
    obtain ⟨n0, n1⟩ := h.eta_bounds (er := r.er)
    rw [hlo] at hx
    generalize (mkPV r.er w d).eta = η at *
    rcases n0.eq_or_lt with rfl | n0
    · linarith
    · nlinarith [mul_pos n0 (sub_pos.2 hy2), mul_nonneg (sub_nonneg.2 n1) (sub_pos.2 hx2).le]

end Ries
