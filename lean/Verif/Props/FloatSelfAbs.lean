import Verif.Model.RoundedSelfAbs
import Verif.Spec.Quadrature
import Verif.Lemmas.RoundedFlux
import Verif.Props.FloatFlux
import Verif.Props.SelfAbsorption
import Mathlib.MeasureTheory.Integral.IntervalIntegral.FundThmCalculus

/-! # C194: the self absorption with numerical quadrature -/

namespace Ries

open MeasureTheory Set

/-- the photons absorbed in a scatterer of areal density `rhoS` between the energies `a` and `b` relative to the resonance -/
noncomputable def absorbedTotal (r : Reso) (rhoS a b : ℝ) : ℝ := ∫ e in a..b, 1 - Real.exp (-(r.rel e) * rhoS)

/-- errors of a ratio -/
theorem ratio_err {n d n' d' θ : ℝ} (hn : 0 ≤ n) (hnd : n ≤ d) (hd : 0 < d) (hθ : θ ≤ 1 / 4) (en : |n' - n| ≤ θ * d) (ed : |d' - d| ≤ θ * d) :
    0 < d' ∧ |n' / d' - n / d| ≤ 8 / 3 * θ := by
  have h1 := abs_le.1 ed
  have h2 : θ * d ≤ 1 / 4 * d := by gcongr
  have hd' : 3 / 4 * d ≤ d' := by linarith
  have hpos : 0 < d' := by linarith
  refine ⟨hpos, ?_⟩
  have e : n' / d' - n / d = ((n' - n) + n / d * (d - d')) / d' := by field_simp; ring
  have h0 : 0 ≤ n / d := by positivity
  have h01 : n / d ≤ 1 := (div_le_one hd).2 hnd
  rw [e, abs_div, abs_of_pos hpos, div_le_iff₀ hpos]
  have h3 : |n' - n + n / d * (d - d')| ≤ θ * d + 1 * (θ * d) := by
    refine (abs_add_le _ _).trans (add_le_add en ?_)
    rw [abs_mul, abs_of_nonneg h0, abs_sub_comm]
    gcongr
  have hθ0 : 0 ≤ θ := by
    by_contra hn'
    have := mul_neg_of_neg_of_pos (not_le.1 hn') hd
    linarith [abs_nonneg (n' - n)]
  have h4 : 8 / 3 * θ * (3 / 4 * d) ≤ 8 / 3 * θ * d' := by gcongr
  linarith

/-- **C194** With a quadrature that meets the tolerances it promises, the computed self absorption differs from the exact one by at most three times the
largest relative error of the integrals: the tolerance, divided by the number of absorbed photons where it is absolute, and the
rounding errors of the integrand, times the length of the range of energies divided by this number. -/
theorem C194_quadrature {A : RArith} {u ω : ℝ} (h : A.Underflowing u ω) (hu : 0 ≤ u) (hu1 : u ≤ 1 / 1000) (hω : 0 ≤ ω) (hω1 : ω ≤ 1 / 1000)
    {quad : (ℝ → ℝ) → ℝ → ℝ → ℝ} {ea er : ℝ} (hq : Integrates ea er quad) (her : 0 ≤ er) {r : Reso} {σ' : ℝ → ℝ} {ε rhoA rhoS a b η θ : ℝ} (hε : 0 ≤ ε)
    (hε1 : ε ≤ 1 / 100) (hab : a ≤ b) (hA : 0 ≤ rhoA) (hS : 0 ≤ rhoS) (hc : ContinuousOn r.rel (Icc a b)) (h0 : ∀ e ∈ Icc a b, 0 ≤ r.rel e)
    (hσ : ∀ e ∈ Icc a b, |σ' e - r.rel e| ≤ ε * r.rel e) (hpos : 0 < absorbedTotal r rhoS a b)
    (hη : η = 2.2 * ε + 18 * u + 12 * (ω * (rhoA + rhoS + 1)))
    (hθ : θ = max (ea / absorbedTotal r rhoS a b) er + η * (b - a) / absorbedTotal r rhoS a b) (hθ1 : θ ≤ 1 / 4) :
    ∃ R R', selfAbsorption r rhoA rhoS a b = .ok R ∧ A.selfAbsorption quad σ' rhoA rhoS a b = .ok R' ∧ |R' - R| ≤ 3 * θ + 5 * u + 3 * ω := by
  have hωA : 0 ≤ ω * rhoA := mul_nonneg hω hA
  have hωS : 0 ≤ ω * rhoS := mul_nonneg hω hS
  have hη0 : 0 ≤ η := by rw [hη]; norm_num; linarith
  -- the factors
  have fac : ∀ ρ, 0 ≤ ρ → ∀ e ∈ Icc a b, (0 ≤ A.exp (A.fl (-(σ' e) * ρ)) ∧ A.exp (A.fl (-(σ' e) * ρ)) ≤ 1) ∧
      |A.exp (A.fl (-(σ' e) * ρ)) - Real.exp (-(r.rel e) * ρ)| ≤ 1.1 * ε + 8 * u + 5 * (ω * (ρ + 1)) := by
    intro ρ hρ e he
    have c0 := RArith.Underflowing.near_nonneg hε1 (h0 e he) (hσ e he)
    refine ⟨h.factor_mem c0 hρ, ?_⟩
    have k := h.factor_err hu hu1 hω hε hε1 (h0 e he) c0 hρ hρ le_rfl (ec := (hσ e he).trans (by
      have := h0 e he
      norm_num
      nlinarith [mul_nonneg hε this, mul_nonneg hu this])) (by simp)
    rw [neg_mul]
    simpa using k
  have share : ∀ e ∈ Icc a b, (0 ≤ A.absorbedShare σ' e rhoS ∧ A.absorbedShare σ' e rhoS ≤ 1) ∧
      |A.absorbedShare σ' e rhoS - (1 - Real.exp (-(r.rel e) * rhoS))| ≤ 1.1 * ε + 9 * u + 5 * (ω * (rhoS + 1)) + ω := by
    intro e he
    obtain ⟨⟨p0, p1⟩, ep⟩ := fac rhoS hS e he
    refine ⟨⟨h.fl_nonneg (by linarith), ?_⟩, ?_⟩
    · rw [← h.one]
      exact h.mono (by linarith)
    · have k := h.fl (1 - A.exp (A.fl (-(σ' e) * rhoS)))
      rw [abs_of_nonneg (by linarith : 0 ≤ 1 - A.exp (A.fl (-(σ' e) * rhoS)))] at k
      have k1 : u * (1 - A.exp (A.fl (-(σ' e) * rhoS))) ≤ u * 1 := by gcongr; linarith
      have k2 := abs_add_le (A.absorbedShare σ' e rhoS - (1 - A.exp (A.fl (-(σ' e) * rhoS))))
        ((1 - A.exp (A.fl (-(σ' e) * rhoS))) - (1 - Real.exp (-(r.rel e) * rhoS)))
      rw [sub_add_sub_cancel, sub_sub_sub_cancel_left, abs_sub_comm (Real.exp _)] at k2
      have k3 : |A.absorbedShare σ' e rhoS - (1 - A.exp (A.fl (-(σ' e) * rhoS)))| ≤ u * (1 - A.exp (A.fl (-(σ' e) * rhoS))) + ω := k
      linarith
  have hcS : ContinuousOn (fun e => 1 - Real.exp (-(r.rel e) * rhoS)) (Icc a b) :=
    continuousOn_const.sub (Real.continuous_exp.comp_continuousOn (hc.neg.mul continuousOn_const))
  have hcA : ContinuousOn (fun e => fluxDensity r e rhoA) (Icc a b) :=
    Real.continuous_exp.comp_continuousOn (hc.neg.mul continuousOn_const)
  have hcN := hcA.mul hcS
  have sh01 : ∀ e ∈ Icc a b, 0 ≤ 1 - Real.exp (-(r.rel e) * rhoS) := by
    intro e he
    have := mul_nonneg (h0 e he) hS
    have : Real.exp (-(r.rel e) * rhoS) ≤ 1 := Real.exp_le_one_iff.2 (by linarith)
    linarith
  have fl01 : ∀ e ∈ Icc a b, 0 ≤ fluxDensity r e rhoA ∧ fluxDensity r e rhoA ≤ 1 := by
    intro e he
    have := mul_nonneg (h0 e he) hA
    exact ⟨(Real.exp_pos _).le, Real.exp_le_one_iff.2 (by linarith)⟩
  set den := absorbedTotal r rhoS a b with hden
  set num := ∫ e in a..b, fluxDensity r e rhoA * (1 - Real.exp (-(r.rel e) * rhoS)) with hnum
  have hI1 : IntervalIntegrable (fun e => fluxDensity r e rhoA * (1 - Real.exp (-(r.rel e) * rhoS))) volume a b := hcN.intervalIntegrable_of_Icc hab
  have hI2 : IntervalIntegrable (fun e => 1 - Real.exp (-(r.rel e) * rhoS)) volume a b := hcS.intervalIntegrable_of_Icc hab
  have num0 : 0 ≤ num := intervalIntegral.integral_nonneg hab fun e he => mul_nonneg (fl01 e he).1 (sh01 e he)
  have numd : num ≤ den := intervalIntegral.integral_mono_on hab hI1 hI2 fun e he => mul_le_of_le_one_left (sh01 e he) (fl01 e he).2
  have hη1 : 1.1 * ε + 9 * u + 5 * (ω * (rhoS + 1)) + ω ≤ η := by rw [hη]; norm_num; linarith only [hε, hu, hω, hωA, hωS]
  have qd := hq a b η _ (fun e => A.absorbedShare σ' e rhoS) hab hη0 hcS fun e he => (share e he).2.trans hη1
  have qn := hq a b η _ (fun e => A.fl (A.fluxDensity σ' e rhoA * A.absorbedShare σ' e rhoS)) hab hη0 hcN fun e he => by
    obtain ⟨⟨p0, p1⟩, ep⟩ := fac rhoA hA e he
    obtain ⟨⟨s0, s1⟩, es⟩ := share e he
    have k := (h.pair_err hu (fl01 e he).1 (fl01 e he).2 p0 p1 s0 s1 ep es).1
    refine k.trans ?_
    rw [hη]
    norm_num
    linarith only [hε, hu, hω, hωA, hωS]
  have hθd : θ * den = max ea (er * den) + η * (b - a) := by
    rw [hθ, add_mul, max_mul_of_nonneg _ _ hpos.le, div_mul_cancel₀ _ hpos.ne', div_mul_cancel₀ _ hpos.ne']
  change |_ - den| ≤ max ea (er * |den|) + _ at qd
  rw [abs_of_pos hpos] at qd
  change |_ - num| ≤ max ea (er * |num|) + _ at qn
  rw [abs_of_nonneg num0] at qn
  have qn' : |quad (fun e => A.fl (A.fluxDensity σ' e rhoA * A.absorbedShare σ' e rhoS)) a b - num| ≤ θ * den := by
    rw [hθd]
    refine qn.trans ?_
    gcongr
  have qd' : |quad (fun e => A.absorbedShare σ' e rhoS) a b - den| ≤ θ * den := by
    rw [hθd]
    exact qd
  obtain ⟨dpos, eR⟩ := ratio_err num0 numd hpos hθ1 qn' qd'
  refine ⟨1 - num / den, A.fl (1 - A.fl (quad (fun e => A.fl (A.fluxDensity σ' e rhoA * A.absorbedShare σ' e rhoS)) a b /
    quad (fun e => A.absorbedShare σ' e rhoS) a b)), ?_, ?_, ?_⟩
  · show (if den = 0 then _ else Except.ok (1 - num / den)) = _
    rw [if_neg hpos.ne']
  · rw [RArith.selfAbsorption]
    exact if_neg dpos.ne'
  · generalize quad (fun e => A.fl (A.fluxDensity σ' e rhoA * A.absorbedShare σ' e rhoS)) a b = n' at *
    generalize quad (fun e => A.absorbedShare σ' e rhoS) a b = d' at *
    have hx0 : 0 ≤ num / den := by positivity
    have hx1 : num / den ≤ 1 := (div_le_one hpos).2 numd
    generalize num / den = x at *
    generalize n' / d' = x' at *
    have b1 := abs_le.1 eR
    have f1 := h.fl x'
    have m1 : |x'| ≤ 5 / 3 := abs_le.2 ⟨by linarith, by linarith⟩
    have m2 : u * |x'| ≤ u * (5 / 3) := by gcongr
    have b2 := abs_le.1 f1
    have f2 := h.fl (1 - A.fl x')
    have m3 : |1 - A.fl x'| ≤ 1.7 := abs_le.2 ⟨by norm_num; linarith, by norm_num; linarith⟩
    have m4 : u * |1 - A.fl x'| ≤ u * 1.7 := by gcongr
    have b3 := abs_le.1 f2
    norm_num at m3 m4 ⊢
    rw [abs_le]
    constructor <;> linarith

/-- the upper integral: the smallest integral of continuous functions above `f` -/
noncomputable def upperQuad (f : ℝ → ℝ) (a b : ℝ) : ℝ :=
  sInf {I | ∃ g : ℝ → ℝ, ContinuousOn g (Icc a b) ∧ (∀ x ∈ Icc a b, f x ≤ g x) ∧ I = ∫ x in a..b, g x}

/-- a quadrature without tolerance exists -/
theorem upperQuad_integrates : Integrates 0 0 upperQuad := by
  intro a b η f f' hab hη hf he
  have hfi := hf.intervalIntegrable_of_Icc (μ := volume) hab
  have low : ∀ I ∈ {I | ∃ g : ℝ → ℝ, ContinuousOn g (Icc a b) ∧ (∀ x ∈ Icc a b, f' x ≤ g x) ∧ I = ∫ x in a..b, g x},
      (∫ x in a..b, f x) - η * (b - a) ≤ I := by
    rintro I ⟨g, hg, hgf, rfl⟩
    have : ∫ x in a..b, (f x - η) ≤ ∫ x in a..b, g x :=
      intervalIntegral.integral_mono_on hab (hfi.sub intervalIntegrable_const) (hg.intervalIntegrable_of_Icc hab)
        fun x hx => by linarith [hgf x hx, (abs_le.1 (he x hx)).1]
    rw [intervalIntegral.integral_sub hfi intervalIntegrable_const, intervalIntegral.integral_const, smul_eq_mul] at this
    linarith
  have mem : (∫ x in a..b, f x) + η * (b - a) ∈
      {I | ∃ g : ℝ → ℝ, ContinuousOn g (Icc a b) ∧ (∀ x ∈ Icc a b, f' x ≤ g x) ∧ I = ∫ x in a..b, g x} := by
    refine ⟨fun x => f x + η, hf.add continuousOn_const, fun x hx => by linarith [(abs_le.1 (he x hx)).2], ?_⟩
    rw [intervalIntegral.integral_add hfi intervalIntegrable_const, intervalIntegral.integral_const, smul_eq_mul]
    ring
  have h1 := csInf_le ⟨_, low⟩ mem
  have h2 := le_csInf ⟨_, mem⟩ low
  rw [zero_mul, max_self, zero_add, abs_le]
  rw [← upperQuad] at h1 h2
  constructor <;> linarith

/-- an exact quadrature integrates continuous functions exactly -/
theorem Integrates.eq {quad : (ℝ → ℝ) → ℝ → ℝ → ℝ} (h : Integrates 0 0 quad) {f : ℝ → ℝ} {a b : ℝ} (hab : a ≤ b)
    (hf : ContinuousOn f (Icc a b)) : quad f a b = ∫ x in a..b, f x := by
  have := h a b 0 f f hab le_rfl hf (by simp)
  simp only [zero_mul, max_self, add_zero, abs_nonpos_iff] at this
  linarith

/-- **C194** The bound cannot be improved by more than a constant factor: even without any rounding, a quadrature may keep its promise and give
a self absorption that is wrong by the absolute tolerance divided by the number of absorbed photons; for a thin scatterer this is more than 1. -/
theorem C194_sharp {r : Reso} {rhoA rhoS a b R ea er : ℝ} (hab : a ≤ b) (hea : 0 ≤ ea) (hc : ContinuousOn r.rel (Icc a b))
    (hR : selfAbsorption r rhoA rhoS a b = .ok R) (hR0 : R ≠ 0) :
    ∃ quad, Integrates ea er quad ∧ RArith.exact.selfAbsorption quad r.rel rhoA rhoS a b = .ok (R - ea / absorbedTotal r rhoS a b) := by
  have hcS : ContinuousOn (fun e => 1 - Real.exp (-(r.rel e) * rhoS)) (Icc a b) :=
    continuousOn_const.sub (Real.continuous_exp.comp_continuousOn (hc.neg.mul continuousOn_const))
  have hcN : ContinuousOn (fun e => fluxDensity r e rhoA * (1 - Real.exp (-(r.rel e) * rhoS))) (Icc a b) :=
    (Real.continuous_exp.comp_continuousOn (hc.neg.mul continuousOn_const)).mul hcS
  have e1 := upperQuad_integrates.eq hab hcS
  have e2 := upperQuad_integrates.eq hab hcN
  rw [selfAbsorption] at hR
  split_ifs at hR with hd
  have hR' := Except.ok.inj hR
  set N := fun e => fluxDensity r e rhoA * (1 - Real.exp (-(r.rel e) * rhoS)) with hN
  set D := fun e => 1 - Real.exp (-(r.rel e) * rhoS) with hD
  have hne : D ≠ N := by
    intro he
    apply hR0
    rw [← hR', ← he, div_self hd, sub_self]
  classical
  refine ⟨fun f x y => if f = N then upperQuad f x y + ea else upperQuad f x y, ?_, ?_⟩
  · intro x y η f f' hxy hη hf he
    have k := upperQuad_integrates x y η f f' hxy hη hf he
    rw [zero_mul, max_self, zero_add] at k
    have m : ea ≤ max ea (er * |∫ t in x..y, f t|) := le_max_left _ _
    simp only
    split_ifs with c
    · have : upperQuad f' x y + ea - ∫ t in x..y, f t = (upperQuad f' x y - ∫ t in x..y, f t) + ea := by ring
      rw [this]
      refine (abs_add_le _ _).trans ?_
      rw [abs_of_nonneg hea]
      linarith
    · linarith
  · have g1 : (fun e => RArith.exact.fl (RArith.exact.fluxDensity r.rel e rhoA * RArith.exact.absorbedShare r.rel e rhoS)) = N := rfl
    have g2 : (fun e => RArith.exact.absorbedShare r.rel e rhoS) = D := rfl
    rw [RArith.selfAbsorption]
    simp only [g1, g2, if_true, if_neg hne, e1, e2, if_neg hd]
    congr 1
    show 1 - ((∫ x in a..b, N x) + ea) / (∫ x in a..b, D x) = R - ea / ∫ x in a..b, D x
    rw [← hR', add_div]
    ring

/-- **C194** In a thin scatterer, where areal density times integrated cross section is below the absolute tolerance, the error that the promise of
the quadrature allows is larger than 1. -/
theorem C194_thin {r : Reso} {rhoS a b ea : ℝ} (hab : a ≤ b) (hc : ContinuousOn r.rel (Icc a b)) (hpos : 0 < absorbedTotal r rhoS a b)
    (hthin : rhoS * (∫ e in a..b, r.rel e) ≤ ea) : 1 ≤ ea / absorbedTotal r rhoS a b := by
  rw [one_le_div hpos]
  refine le_trans ?_ hthin
  have hcS : ContinuousOn (fun e => 1 - Real.exp (-(r.rel e) * rhoS)) (Icc a b) :=
    continuousOn_const.sub (Real.continuous_exp.comp_continuousOn (hc.neg.mul continuousOn_const))
  rw [absorbedTotal, ← intervalIntegral.integral_const_mul]
  refine intervalIntegral.integral_mono_on hab (hcS.intervalIntegrable_of_Icc hab) ((continuousOn_const.mul hc).intervalIntegrable_of_Icc hab) fun e _ => ?_
  have := Real.add_one_le_exp (-(r.rel e) * rhoS)
  linarith

/-- the resonance of the notebook meets the hypotheses, for all widths, masses, temperatures and ranges of energies -/
theorem C194_li6 (k : PhysConst) {Γ amu T : ℝ} (hΓ : 0 < Γ) (ha : 0 < amu) (hT : 0 ≤ T) {rhoS a b : ℝ} (hS : 0 < rhoS) (hab : a < b) :
    ∃ r, mkVoigt k li6Ground (li6Excited Γ) amu T none = .ok r ∧ ContinuousOn r.rel (Icc a b) ∧ (∀ e, 0 ≤ r.rel e) ∧
      0 < absorbedTotal r rhoS a b := by
  obtain ⟨r, hr, her, hics⟩ := li6_voigt k hΓ ha T
  have hg : 0 < Γ / 2 := by linarith
  have hsig := voigt_sigma hr ha hT (li6_exc Γ) (li6_width Γ) hΓ
  have hcont : Continuous r.rel := by
    have e : r.rel = fun e => _ := funext fun e => rel_eq hsig e
    rw [e]
    exact (continuous_const.mul (coldVoigt_continuous_energy r.er _ hg)).comp (continuous_id.add continuous_const)
  have hpos : ∀ e, 0 < r.rel e := fun e => by
    rw [rel_eq hsig e]
    exact mul_pos hics (coldVoigt_pos _ _ _ hg)
  refine ⟨r, hr, hcont.continuousOn, fun e => (hpos e).le, ?_⟩
  have hc2 : Continuous fun e => 1 - Real.exp (-(r.rel e) * rhoS) := by fun_prop
  refine intervalIntegral.intervalIntegral_pos_of_pos_on (hc2.intervalIntegrable a b) (fun e _ => ?_) hab
  have := mul_pos (hpos e) hS
  have : Real.exp (-(r.rel e) * rhoS) < 1 := by
    rw [← Real.exp_zero]
    exact Real.exp_lt_exp.2 (by linarith)
  linarith

/-- a cross section of 1 at all energies -/
noncomputable def exFlat : Reso := ⟨0, 1, 1, 1, 1, ⟨fun _ _ => .ok (.fin 1), fun _ _ => .error .typeError, fun _ _ => .error .typeError⟩, []⟩

/-- the hypotheses of `C194_quadrature`: with the default tolerances of `quad`, an arithmetic with underflow and a scatterer in which most photons are
absorbed, the self absorption is accurate to 10^-6 -/
example : ∃ R R', selfAbsorption exFlat 1 1 0 1 = .ok R ∧ flushedArith.selfAbsorption upperQuad (fun _ => 1) 1 1 0 1 = .ok R' ∧ |R' - R| ≤ 1e-6 := by
  have hrel : exFlat.rel = fun _ => 1 := by
    funext e
    simp [Reso.rel, Reso.call, exFlat, Fl.smul, Bind.bind, Except.bind]
  have htot : absorbedTotal exFlat 1 0 1 = 1 - Real.exp (-1) := by simp [absorbedTotal, hrel]
  have hexp : Real.exp (-1) ≤ 1 / 2 := by
    have := mul_exp_neg_le zero_le_one
    linarith
  have hn := normal_le
  have hn0 : (0 : ℝ) < 2 ^ (-1022 : ℤ) := by positivity
  have hq : Integrates 1.49e-8 1.49e-8 upperQuad := by
    intro a b η f f' h1 h2 h3 h4
    have := upperQuad_integrates a b η f f' h1 h2 h3 h4
    rw [zero_mul, max_self, zero_add] at this
    have h5 : (0 : ℝ) ≤ max 1.49e-8 (1.49e-8 * |∫ x in a..b, f x|) := le_max_of_le_left (by norm_num)
    linarith
  have hθ : max ((1.49e-8 : ℝ) / absorbedTotal exFlat 1 0 1) 1.49e-8 +
      (2.2 * 0 + 18 * (1 / 2 ^ 53) + 12 * ((2 : ℝ) ^ (-1022 : ℤ) * (1 + 1 + 1))) * (1 - 0) / absorbedTotal exFlat 1 0 1 ≤ 3e-8 := by
    have h1 : max ((1.49e-8 : ℝ) / absorbedTotal exFlat 1 0 1) 1.49e-8 ≤ 2.98e-8 := by
      refine max_le ?_ (by norm_num)
      rw [div_le_iff₀ (by rw [htot]; linarith), htot]
      norm_num at *
      linarith
    have h2 : (2.2 * 0 + 18 * (1 / 2 ^ 53) + 12 * ((2 : ℝ) ^ (-1022 : ℤ) * (1 + 1 + 1))) * (1 - 0) / absorbedTotal exFlat 1 0 1 ≤ 1e-10 := by
      rw [div_le_iff₀ (by rw [htot]; linarith), htot]
      generalize (2 : ℝ) ^ (-1022 : ℤ) = m at *
      norm_num at *
      linarith
    refine (add_le_add h1 h2).trans (by norm_num)
  obtain ⟨R, R', h1, h2, h3⟩ := C194_quadrature flushedArith_underflowing (by norm_num) (by norm_num) hn0.le (hn.trans (by norm_num)) hq (by norm_num)
    (r := exFlat) (σ' := fun _ => 1) (ε := 0) (rhoA := 1) (rhoS := 1) (a := 0) (b := 1) le_rfl (by norm_num) zero_le_one zero_le_one zero_le_one
    (by rw [hrel]; exact continuousOn_const) (fun e _ => by rw [hrel]; exact zero_le_one) (fun e _ => by rw [hrel]; simp)
    (by rw [htot]; linarith) rfl rfl (hθ.trans (by norm_num))
  refine ⟨R, R', h1, h2, h3.trans ?_⟩
  have : 3 * (3e-8 : ℝ) + 5 * (1 / 2 ^ 53) + 3 * (2 : ℝ) ^ (-1022 : ℤ) ≤ 1e-6 := by
    generalize (2 : ℝ) ^ (-1022 : ℤ) = m at *
    norm_num at *
    linarith
  linarith

end Ries
