import Verif.Props.SelfAbsorption
import Verif.Props.Beam
import Mathlib.MeasureTheory.Integral.IntervalIntegral.FundThmCalculus

/-! # Property C162: absorption densities of the 6Li notebook -/

open MeasureTheory Set Filter

namespace Ries

/-- C162: the absorption density is the rate at which the flux decreases with the depth, so what is absorbed between two depths is the
difference of the fluxes there; at all energies, and for all cross sections. -/
theorem C162_balance (r : Reso) (e ρ₁ ρ₂ : ℝ) :
    (∀ ρ, HasDerivAt (fluxDensity r e) (-absorptionDensity r e ρ) ρ) ∧ fluxDensity r e 0 = 1 ∧
      ∫ ρ in ρ₁..ρ₂, absorptionDensity r e ρ = fluxDensity r e ρ₁ - fluxDensity r e ρ₂ := by
  have hd : ∀ ρ, HasDerivAt (fluxDensity r e) (-absorptionDensity r e ρ) ρ := fun ρ => by
    have h1 : HasDerivAt (fun ρ => Real.exp (-(r.rel e) * ρ)) (Real.exp (-(r.rel e) * ρ) * (-(r.rel e) * 1)) ρ :=
      ((hasDerivAt_id ρ).const_mul _).exp
    exact h1.congr_deriv (by simp only [absorptionDensity, fluxDensity]; ring)
  have hc : Continuous (absorptionDensity r e) := by unfold absorptionDensity fluxDensity; fun_prop
  refine ⟨hd, by simp [fluxDensity], ?_⟩
  have h := intervalIntegral.integral_eq_sub_of_hasDerivAt (a := ρ₁) (b := ρ₂) (fun ρ _ => hd ρ)
    (hc.neg.intervalIntegrable _ _)
  rw [intervalIntegral.integral_neg] at h
  linarith

/-- C162: the self absorption of the notebook, with the integral over the depth solved by hand, is the one defined by the two-dimensional
integrals of the plotted densities, in any order of integration. -/
theorem C162_self_absorption {r : Reso} {σ : ℝ → ℝ} (hσ : r.HasSigma σ) (hc : Continuous σ) (hp : ∀ E, 0 < σ E) {a b ρA ρS : ℝ}
    (hab : a < b) (hS : 0 < ρS) : ∃ R N N₀, selfAbsorption r ρA ρS a b = .ok R ∧ 0 < N₀ ∧ R = 1 - N / N₀ ∧
      N = (∫ e in a..b, ∫ ρ in (0 : ℝ)..ρS, fluxDensity r e ρA * absorptionDensity r e ρ) ∧
      N = (∫ ρ in (0 : ℝ)..ρS, ∫ e in a..b, fluxDensity r e ρA * absorptionDensity r e ρ) ∧
      N₀ = (∫ e in a..b, ∫ ρ in (0 : ℝ)..ρS, absorptionDensity r e ρ) ∧
      N₀ = (∫ ρ in (0 : ℝ)..ρS, ∫ e in a..b, absorptionDensity r e ρ) := by
  have hrel : Continuous r.rel := by
    have : r.rel = fun e => σ (e + r.er) := funext (rel_eq hσ)
    rw [this]; fun_prop
  have hin : ∀ e, ∫ ρ in (0 : ℝ)..ρS, absorptionDensity r e ρ = 1 - Real.exp (-(r.rel e) * ρS) := fun e => by
    rw [(C162_balance r e 0 ρS).2.2, (C162_balance r e 0 ρS).2.1]; rfl
  have hin' : ∀ e, ∫ ρ in (0 : ℝ)..ρS, fluxDensity r e ρA * absorptionDensity r e ρ =
      fluxDensity r e ρA * (1 - Real.exp (-(r.rel e) * ρS)) := fun e => by
    rw [intervalIntegral.integral_const_mul, hin]
  have hpos : 0 < ∫ e in a..b, 1 - Real.exp (-(r.rel e) * ρS) :=
    scat_integral_pos hrel (fun e => by rw [rel_eq hσ]; exact hp _) hab hS
  have sw : ∀ f : ℝ → ℝ → ℝ, Continuous (Function.uncurry f) →
      ∫ e in a..b, ∫ ρ in (0 : ℝ)..ρS, f e ρ = ∫ ρ in (0 : ℝ)..ρS, ∫ e in a..b, f e ρ := fun f hf =>
    intervalIntegral_intervalIntegral_swap <|
      (hf.continuousOn.integrableOn_compact (isCompact_uIcc.prod isCompact_uIcc)).mono_set
        (prod_mono uIoc_subset_uIcc uIoc_subset_uIcc)
  refine ⟨_, _, _, by rw [selfAbsorption, if_neg hpos.ne'], hpos, rfl, ?_, ?_, ?_, ?_⟩
  · simp only [hin']
  · rw [← sw _ (by unfold Function.uncurry absorptionDensity fluxDensity; fun_prop)]; simp only [hin']
  · simp only [hin]
  · rw [← sw _ (by unfold Function.uncurry absorptionDensity fluxDensity; fun_prop)]; simp only [hin]

theorem absorption_lt {ρ x y : ℝ} (hx : 0 < x) (hxy : x < y) (h : ρ * y ≤ 1) :
    x * Real.exp (-x * ρ) < y * Real.exp (-y * ρ) := by
  have hy : 0 < y := hx.trans hxy
  have h1 : x / y < Real.exp (x / y - 1) := by
    have := Real.add_one_lt_exp (x := x / y - 1) (by rw [ne_eq, sub_eq_zero, div_eq_one_iff_eq hy.ne']; exact hxy.ne)
    linarith
  have h2 : x / y - 1 ≤ -y * ρ + x * ρ := by
    have : ρ * (y - x) ≤ (y - x) / y := by
      rw [le_div_iff₀ hy]; nlinarith
    have e : x / y - 1 = -((y - x) / y) := by field_simp; ring
    rw [e]; nlinarith
  have h3 : x / y < Real.exp (-y * ρ + x * ρ) := h1.trans_le (Real.exp_le_exp.2 h2)
  rw [div_lt_iff₀ hy, Real.exp_add] at h3
  have h4 : Real.exp (x * ρ) * Real.exp (-x * ρ) = 1 := by rw [← Real.exp_add]; simp
  calc x * Real.exp (-x * ρ) < Real.exp (-y * ρ) * Real.exp (x * ρ) * y * Real.exp (-x * ρ) :=
        mul_lt_mul_of_pos_right h3 (Real.exp_pos _)
    _ = y * Real.exp (-y * ρ) * (Real.exp (x * ρ) * Real.exp (-x * ρ)) := by ring
    _ = y * Real.exp (-y * ρ) := by rw [h4, mul_one]

theorem absorption_gt {ρ x y : ℝ} (hx : 0 < x) (hxy : x < y) (h : 1 ≤ ρ * x) :
    y * Real.exp (-y * ρ) < x * Real.exp (-x * ρ) := by
  have h1 : y / x < Real.exp (y / x - 1) := by
    have := Real.add_one_lt_exp (x := y / x - 1) (by rw [ne_eq, sub_eq_zero, div_eq_one_iff_eq hx.ne']; exact hxy.ne')
    linarith
  have h2 : y / x - 1 ≤ -x * ρ + y * ρ := by
    have : (y - x) / x ≤ ρ * (y - x) := by
      rw [div_le_iff₀ hx]; nlinarith
    have e : y / x - 1 = (y - x) / x := by field_simp
    rw [e]; nlinarith
  have h3 : y / x < Real.exp (-x * ρ + y * ρ) := h1.trans_le (Real.exp_le_exp.2 h2)
  rw [div_lt_iff₀ hx, Real.exp_add] at h3
  have h4 : Real.exp (y * ρ) * Real.exp (-y * ρ) = 1 := by rw [← Real.exp_add]; simp
  calc y * Real.exp (-y * ρ) < Real.exp (-x * ρ) * Real.exp (y * ρ) * x * Real.exp (-y * ρ) :=
        mul_lt_mul_of_pos_right h3 (Real.exp_pos _)
    _ = x * Real.exp (-x * ρ) * (Real.exp (y * ρ) * Real.exp (-y * ρ)) := by ring
    _ = x * Real.exp (-x * ρ) := by rw [h4, mul_one]

/-- C162: up to the depth where the flux at the resonance energy has fallen to `1/e`, the absorption density has its only maximum at the resonance
energy; at larger depths it has a minimum there. At no depth and no energy is it larger than at the surface on resonance. -/
theorem C162_shape {r : Reso} (h : IsBreitWigner r ∨ IsGauss r ∨ IsPseudoVoigt r ∨ IsVoigt r) (hI : 0 < r.ics) {ρ : ℝ} (hρ : 0 ≤ ρ) :
    (Real.exp (-1) ≤ fluxDensity r 0 ρ → ∀ e, e ≠ 0 → absorptionDensity r e ρ < absorptionDensity r 0 ρ) ∧
      (fluxDensity r 0 ρ < Real.exp (-1) →
        ∃ δ > 0, ∀ e, e ≠ 0 → |e| < δ → absorptionDensity r 0 ρ < absorptionDensity r e ρ) ∧
      ∀ e, absorptionDensity r e ρ ≤ absorptionDensity r 0 0 := by
  obtain ⟨σ, hσ, hc, hpk, hp⟩ := shape_sigma h hI
  have hlt : ∀ e, e ≠ 0 → r.rel e < r.rel 0 := fun e he => by
    rw [rel_eq hσ, rel_eq hσ, zero_add, add_comm, ← hpk.abs_eq]
    simpa using hpk.anti 0 |e| le_rfl (abs_pos.2 he)
  have hpos : ∀ e, 0 < r.rel e := fun e => by rw [rel_eq hσ]; exact hp _
  have hrel : Continuous r.rel := by
    have : r.rel = fun e => σ (e + r.er) := funext (rel_eq hσ)
    rw [this]; fun_prop
  refine ⟨fun hf e he => ?_, fun hf => ?_, fun e => ?_⟩
  · have : ρ * r.rel 0 ≤ 1 := by
      have := Real.exp_le_exp.1 hf
      linarith
    exact absorption_lt (hpos e) (hlt e he) this
  · have h1 : 1 < ρ * r.rel 0 := by
      have := Real.exp_lt_exp.1 hf
      linarith
    have h2 : ∀ᶠ e in nhds (0 : ℝ), 1 < ρ * r.rel e :=
      (continuous_const.mul hrel).continuousAt.eventually (lt_mem_nhds h1)
    obtain ⟨δ, hδ, hb⟩ := Metric.eventually_nhds_iff.1 h2
    refine ⟨δ, hδ, fun e he hl => ?_⟩
    exact absorption_gt (hpos e) (hlt e he) (hb (by simpa using hl)).le
  · have h1 : r.rel e ≤ r.rel 0 := by
      by_cases he : e = 0
      · rw [he]
      · exact (hlt e he).le
    have h2 : Real.exp (-(r.rel e) * ρ) ≤ 1 := Real.exp_le_one_iff.2 (by nlinarith [hpos e])
    simp only [absorptionDensity, fluxDensity, mul_zero, Real.exp_zero, mul_one]
    nlinarith [hpos e]

/-- the hypotheses hold for a Breit-Wigner resonance, and both cases of the theorem on the shape occur -/
example : ∃ r σ, IsBreitWigner r ∧ 0 < r.ics ∧ r.HasSigma σ ∧ Continuous σ ∧ (∀ E, 0 < σ E) ∧ Real.exp (-1) ≤ fluxDensity r 0 0 ∧ ∃ ρ, 0 ≤ ρ ∧ fluxDensity r 0 ρ < Real.exp (-1) := by
  obtain ⟨r, h, hI⟩ : ∃ r, IsBreitWigner r ∧ 0 < r.ics := by
    obtain ⟨r, h, -, hI⟩ := exMid_resonance
    exact ⟨{ r with dist := cauchyDist, params := [r.er, 0.5 * 1e-5] },
      ⟨exConst, exGround, exMid, none, 1e-5, by simp [mkBreitWigner, h, exMid_width, Bind.bind, Except.bind], exMid_width, by norm_num⟩, hI⟩
  obtain ⟨σ, hσ, hc, hpk, hp⟩ := shape_sigma (.inl h) hI
  have hpos : 0 < r.rel 0 := by rw [rel_eq hσ]; exact hp _
  refine ⟨r, σ, h, hI, hσ, hc, hp, by simp [fluxDensity], 2 / r.rel 0, by positivity, ?_⟩
  unfold fluxDensity
  refine Real.exp_lt_exp.2 ?_
  field_simp
  norm_num

end Ries
