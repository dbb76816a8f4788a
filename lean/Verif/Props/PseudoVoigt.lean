import Verif.Lemmas.Newton
import Verif.Lemmas.Shapes
import Verif.Props.Grid
import Verif.Props.Resonance
import Mathlib.Analysis.Real.Pi.Bounds
import Mathlib.Analysis.Complex.ExponentialBounds

/-! # Properties C18, C19, C31 - C34 of the pseudo-Voigt shape -/

open MeasureTheory Set Filter Topology

namespace Ries

theorem exPseudoVoigt (T : ℝ) : ∃ r, mkPseudoVoigt exConst exGround exExcited 11 T none = .ok r ∧ r.er = 2 ∧
    r.dist = (mkPV 2 4 (dopplerWidth exConst 11 T 2)).toDist ∧ r.params = [] := by
  obtain ⟨r, h, he⟩ := exResonance
  refine ⟨{ r with dist := (mkPV r.er 4 (dopplerWidth exConst 11 T r.er)).toDist, params := [] }, ?_, he, ?_, rfl⟩
  · simp [mkPseudoVoigt, h, exExcited_width, getDopplerWidth_ok exConst (show (11 : ℝ) ≠ 0 by norm_num), Bind.bind, Except.bind]
  · simp [he]

theorem exIsPseudoVoigt : ∃ r, IsPseudoVoigt r := by
  obtain ⟨r, h, -⟩ := exPseudoVoigt 293
  exact ⟨r, _, _, _, 11, 293, _, 4, h, by norm_num, by norm_num,
    by norm_num [exGround, exExcited, groundState, state], exExcited_width, by norm_num, Or.inl (by norm_num)⟩

/-! ## C31 -/

/-- C31: for every nonnegative width and Doppler width, not both 0, the mixture has a total width at
least as large as both FWHMs, a weight in [0,1], a positive PDF, and a strictly increasing CDF from 0 to 1 whose derivative
is the PDF. -/
theorem C31_convex (er w d : ℝ) (hw : 0 ≤ w) (hd : 0 ≤ d) (hne : 0 < w ∨ 0 < d) :
    2 * Real.sqrt (Real.log 2) * d ≤ (mkPV er w d).bigGamma ∧ w ≤ (mkPV er w d).bigGamma ∧
    0 ≤ (mkPV er w d).eta ∧ (mkPV er w d).eta ≤ 1 ∧
    ∃ F p : ℝ → ℝ, (∀ x, (mkPV er w d).toDist.pdf [] x = .ok (.fin (p x))) ∧
      (∀ xs, (mkPV er w d).toDist.cdf [] xs = .ok (xs.map fun x => .fin (F x))) ∧
      (∀ x, 0 < p x) ∧ StrictMono F ∧ Tendsto F atBot (𝓝 0) ∧ Tendsto F atTop (𝓝 1) ∧ ∀ x, HasDerivAt F (p x) x := by
  have hok : PV.Ok w d := ⟨hw, hd, hne⟩
  refine ⟨pvGamma_ge_left hok.g0 hw, pvGamma_ge_right hok.g0 hw, hok.eta_bounds.1, hok.eta_bounds.2,
    (mkPV er w d).cdfR, (mkPV er w d).pdfR, ?_, ?_, hok.good.pos, hok.good.strictMono, hok.good.bot, hok.good.top,
    hok.good.deriv⟩
  · intro x
    simp [PV.toDist, PV.pdf, hok.valid]
  · intro xs
    simp [PV.toDist, PV.cdf, hok.valid]

example : (0 : ℝ) ≤ 4 ∧ (0 : ℝ) ≤ 1 ∧ ((0 : ℝ) < 4 ∨ (0 : ℝ) < 1) := by norm_num

/-- C31, the excluded case: with both widths 0 every value of the distribution is nan. -/
theorem C31_degenerate (er x : ℝ) : (mkPV er 0 0).toDist.pdf [] x = .ok .nan ∧
    (mkPV er 0 0).toDist.cdf [] [x] = .ok [.nan] := by
  have h0 : pvGamma 0 0 = 0 := pvGamma_zero_left le_rfl
  have hv : ¬ (mkPV er 0 0).Valid := by
    rintro ⟨-, h⟩
    simp [PV.cauchyScale, mkPV, h0] at h
  simp [PV.toDist, PV.pdf, PV.cdf, hv]

/-! ## C32 -/

theorem mkPV_width_zero (er : ℝ) {d : ℝ} (hd : 0 < d) : (mkPV er 0 d).eta = 0 ∧ (mkPV er 0 d).normScale = d / Real.sqrt 2 := by
  have hs := sqrt_log_two_pos
  have hg : pvGamma (2 * Real.sqrt (Real.log 2) * d) 0 = 2 * Real.sqrt (Real.log 2) * d := pvGamma_zero_right (by positivity)
  constructor
  · simp [mkPV, pvEta_ratio]
  · simp only [PV.normScale, mkPV, hg]
    congr 1
    field_simp

theorem mkPV_doppler_zero (er : ℝ) {w : ℝ} (hw : 0 < w) : (mkPV er w 0).eta = 1 ∧ (mkPV er w 0).cauchyScale = w / 4 := by
  have hg : pvGamma (2 * Real.sqrt (Real.log 2) * 0) w = w := by
    rw [mul_zero]; exact pvGamma_zero_left hw.le
  constructor
  · simp only [mkPV, pvEta_ratio, hg, div_self hw.ne']
    norm_num
  · simp only [PV.cauchyScale, mkPV, hg]
    ring

/-- C32 is false of the code: without Doppler broadening the peak is twice as high as the one of the
Breit-Wigner resonance of the same states, for all states and widths. -/
theorem C32_refuted {k : PhysConst} {init inter : Level} {final : Option Level} {amu w : ℝ} {r b : Reso}
    (hr : mkPseudoVoigt k init inter amu 0 final = .ok r) (hb : mkBreitWigner k init inter final = .ok b)
    (ha : 0 < amu) (hw : inter.width = .ok w) (hpos : 0 < w) (hI : r.ics ≠ 0) :
    b.er = r.er ∧ ∃ x y, r.call r.er = .ok (.fin x) ∧ b.call r.er = .ok (.fin y) ∧ x = 2 * y ∧ x ≠ y := by
  obtain ⟨r0, d, ps, hr0, hd, rfl⟩ := build_inv (s := .pseudoVoigt amu 0) hr
  obtain ⟨b0, w', hb0, hw', rfl⟩ := mkBreitWigner_inv hb
  rw [hw] at hw'; cases hw'
  have : b0 = r0 := by
    have h1 : mkResonance k init inter final noRecoil = .ok r0 := hr0
    rw [h1] at hb0
    simpa using hb0.symm
  subst this
  have hD : dopplerWidth k amu 0 b0.er = 0 := by simp [dopplerWidth]
  simp only [Shape.distOf, hw, getDopplerWidth_ok k ha.ne', Bind.bind, Except.bind, Except.ok.injEq, Prod.mk.injEq, hD] at hd
  obtain ⟨rfl, rfl⟩ := hd
  have hok : PV.Ok w 0 := ⟨hpos.le, le_rfl, Or.inl hpos⟩
  have hσ := pv_sigma (r := { b0 with dist := (mkPV b0.er w 0).toDist, params := [] }) hok rfl rfl b0.er
  have hβ := (analytic_cauchy (r := { b0 with dist := cauchyDist, params := [b0.er, 0.5 * w] }) (l := b0.er)
    (s := 0.5 * w) rfl rfl (by linarith)).sigma b0.er
  obtain ⟨h1, h2⟩ := mkPV_doppler_zero b0.er hpos
  have hpi := Real.pi_pos
  have e : (mkPV b0.er w 0).pdfR b0.er = 2 * cauchyPdf b0.er (0.5 * w) b0.er := by
    have her : (mkPV b0.er w 0).er = b0.er := rfl
    simp only [PV.pdfR, h1, h2, her, cauchyPdf]
    simp
    field_simp
    norm_num
  refine ⟨rfl, _, _, hσ, hβ, ?_, ?_⟩
  · simp only [e]; ring
  · simp only [e]
    have h3 := cauchyPdf_pos (show 0 < 0.5 * w by linarith) b0.er b0.er
    intro h
    have : b0.ics * cauchyPdf b0.er (0.5 * w) b0.er = 0 := by linarith
    rcases mul_eq_zero.1 this with h' | h'
    · exact hI h'
    · exact h3.ne' h'

example : ∃ r b, mkPseudoVoigt exConst exGround exExcited 11 0 none = .ok r ∧
    mkBreitWigner exConst exGround exExcited none = .ok b ∧ (0 : ℝ) < 11 ∧ exExcited.width = .ok 4 := by
  obtain ⟨r, h, -⟩ := exPseudoVoigt 0
  obtain ⟨b, hb, -⟩ := exBreitWigner
  exact ⟨r, b, h, hb, by norm_num, exExcited_width⟩

/-- C32, the parts that hold: at zero width the distribution is exactly the normal distribution that the Gauss resonance
uses (PDF and CDF). At zero Doppler width it is exactly a Cauchy distribution, but one with a quarter of the width as scale
where the Breit-Wigner shape has one half. Missing: equality with Breit-Wigner (false, see `C32_refuted`). -/
theorem C32_partial (er : ℝ) :
    (∀ d, 0 < d → ∀ x, (mkPV er 0 d).toDist.pdf [] x = normDist.pdf [er, d / Real.sqrt 2] x ∧
      (mkPV er 0 d).toDist.cdf [] [x] = normDist.cdf [er, d / Real.sqrt 2] [x]) ∧
    (∀ w, 0 < w → ∀ x, (mkPV er w 0).toDist.pdf [] x = cauchyDist.pdf [er, w / 4] x ∧
      (mkPV er w 0).toDist.cdf [] [x] = cauchyDist.cdf [er, w / 4] [x]) := by
  constructor
  · intro d hd x
    have hok : PV.Ok 0 d := ⟨le_rfl, hd.le, Or.inr hd⟩
    obtain ⟨h1, h2⟩ := mkPV_width_zero er hd
    have her : (mkPV er 0 d).er = er := rfl
    have : 0 < d / Real.sqrt 2 := by positivity
    simp [PV.toDist, PV.pdf, PV.cdf, hok.valid, PV.pdfR, PV.cdfR, h1, h2, her, normDist, scipyDist, locScale, Bind.bind,
      Except.bind, this]
  · intro w hw x
    have hok : PV.Ok w 0 := ⟨hw.le, le_rfl, Or.inl hw⟩
    obtain ⟨h1, h2⟩ := mkPV_doppler_zero er hw
    have her : (mkPV er w 0).er = er := rfl
    have : 0 < w / 4 := by positivity
    simp [PV.toDist, PV.pdf, PV.cdf, hok.valid, PV.pdfR, PV.cdfR, h1, h2, her, cauchyDist, scipyDist, locScale, Bind.bind,
      Except.bind, this]

/-! ## C19 -/

/-- C19 for the pseudo-Voigt shape. -/
theorem C19_pseudoVoigt {r : Reso} (h : IsPseudoVoigt r) : ∃ σ, r.HasSigma σ ∧ Integrable σ ∧ ∫ E, σ E = r.ics := by
  obtain ⟨w, d, hok, -, hd, hp⟩ := h.inv
  refine ⟨_, pv_sigma hok hd hp, hok.good.integrable.const_mul _, ?_⟩
  rw [integral_const_mul, hok.good.integral, mul_one]

example : ∃ r, IsPseudoVoigt r := exIsPseudoVoigt

/-! ## C18 -/

/-- C18, the part that holds: for pseudo-Voigt resonances the number in the warning is the reachable coverage
`100 (1 - CDF(0))`. Missing: Breit-Wigner and Gauss, for which it is false (`C18_refuted`). -/
theorem C18_partial {k : PhysConst} {init inter : Level} {final : Option Level} {amu T w : ℝ} {r : Reso}
    (hr : mkPseudoVoigt k init inter amu T final = .ok r) (ha : amu ≠ 0) (hw : inter.width = .ok w)
    (hok : PV.Ok w (dopplerWidth k amu T r.er)) (c : ℝ) (ci : Reso.Cov) (hc : r.coverageInterval c = .ok ci) (x : Fl)
    (hx : ci.warnNegative = some x) : ∃ v, x = .fin v ∧ ReachableCoverage r v := by
  obtain ⟨r0, d, ps, hr0, hd, rfl⟩ := build_inv (s := .pseudoVoigt amu T) hr
  simp only [Shape.distOf, hw, getDopplerWidth_ok k ha, Bind.bind, Except.bind, Except.ok.injEq, Prod.mk.injEq] at hd
  obtain ⟨rfl, rfl⟩ := hd
  simp only at hok
  set D := mkPV r0.er w (dopplerWidth k amu T r0.er) with hD
  set r : Reso := { r0 with dist := D.toDist, params := [] } with hrdef
  refine ⟨100 * (1 - D.cdfR 0), ?_, _, pv_sigma hok rfl rfl, ?_⟩
  · have hcdf : r.dist.cdf [] [0] = .ok [.fin (D.cdfR 0)] := by
      simp [hrdef, PV.toDist, PV.cdf, hD, hok.valid]
    unfold Reso.coverageInterval at hc
    simp only [Bind.bind, Except.bind, hcdf] at hc
    split at hc
    · simp at hc
    split at hc
    · split at hc
      · simp only [Except.ok.injEq] at hc
        subst hc
        simp only [Option.some.injEq] at hx
        rw [← hx]
        simp [Fl.smul, Fl.add]
        ring
      · simp only [Except.ok.injEq] at hc
        subst hc
        simp at hx
    · simp at hc
  · show 100 * ∫ E in Ioi 0, r0.ics * D.pdfR E = _ * ∫ E, r0.ics * D.pdfR E
    rw [integral_const_mul, integral_const_mul, hok.good.integral, hok.good.integral_Ioi]
    ring

/-! ## C33 -/

/-- C33 for one quantile: either the root search converged, then the value misses the quantile by at most the tolerance
times the PDF at the peak and lies between the peak and the exact quantile, without a warning; or the fallback mixture
of the two PPFs is returned with a warning. -/
theorem C33_scalar (er w d : ℝ) (hw : 0 ≤ w) (hd : 0 ≤ d) (hne : 0 < w ∨ 0 < d) (q : ℝ) :
    (∃ x F p, (mkPV er w d).ppfScalar q = (.fin x, false) ∧ (mkPV er w d).cdf x = .fin F ∧ (mkPV er w d).pdf er = .fin p ∧
      |F - q| ≤ 1.48e-8 * p ∧ (1 / 2 ≤ q → er ≤ x ∧ F ≤ q) ∧ (q ≤ 1 / 2 → x ≤ er ∧ q ≤ F)) ∨
    (mkPV er w d).ppfScalar q = ((mkPV er w d).ppfMix (.fin q), true) := by
  have hok : PV.Ok w d := ⟨hw, hd, hne⟩
  have her : (mkPV er w d).er = er := rfl
  have hhalf := hok.half (er := er)
  unfold PV.ppfScalar
  rw [if_pos hok.valid]
  cases hN : newtonScalar (mkPV er w d).cdfR (mkPV er w d).pdfR q 50 (mkPV er w d).er with
  | error e => right; rfl
  | ok x =>
    left
    obtain ⟨h1, h2⟩ := newtonScalar_good hok.good hok.peaked q 50 _ x
      (by rw [her]; exact ⟨fun h => ⟨le_rfl, by rw [hhalf]; exact h⟩, fun h => ⟨le_rfl, by rw [hhalf]; exact h⟩⟩) hN
    exact ⟨x, _, _, rfl, by simp [PV.cdf, hok.valid], by simp [PV.pdf, hok.valid], h1, h2.1, h2.2⟩

/-- C33: the fallback is the mixture of the exact quantiles of the two components. -/
theorem C33_fallback (er w d : ℝ) (hw : 0 ≤ w) (hd : 0 ≤ d) (hne : 0 < w ∨ 0 < d) {q : ℝ} (h0 : 0 < q) (h1 : q < 1) :
    ∃ a b, (mkPV er w d).ppfMix (.fin q) = .fin ((1 - (mkPV er w d).eta) * a + (mkPV er w d).eta * b) ∧
      normCdf er (mkPV er w d).normScale a = q ∧ cauchyCdf er (mkPV er w d).cauchyScale b = q := by
  have hok : PV.Ok w d := ⟨hw, hd, hne⟩
  have her : (mkPV er w d).er = er := rfl
  refine ⟨_, _, ?_, (norm_good er (hok.normScale_pos (er := er))).invOf_spec h0 h1,
    cauchyPpf_spec er (hok.cauchyScale_pos (er := er)) h0 h1⟩
  simp [PV.ppfMix, ppfAt, her, h0, h1, h0.ne', h1.ne, Fl.smul, Fl.add]

/-- C33: the quantile 1/2 is exactly the resonance energy. -/
theorem C33_median (er w d : ℝ) (hw : 0 ≤ w) (hd : 0 ≤ d) (hne : 0 < w ∨ 0 < d) :
    (mkPV er w d).ppfScalar (1 / 2) = (.fin er, false) := by
  have hok : PV.Ok w d := ⟨hw, hd, hne⟩
  have her : (mkPV er w d).er = er := rfl
  unfold PV.ppfScalar
  rw [if_pos hok.valid]
  unfold newtonScalar
  rw [her, if_pos (by rw [hok.half]; ring)]

/-- C33 for an array: converged values have the same accuracy and position, in the order of the quantiles; in
particular a sorted array of quantiles gives a sorted array of energies. With a warning, all values are the fallback. -/
theorem C33_array (er w d : ℝ) (hw : 0 ≤ w) (hd : 0 ≤ d) (hne : 0 < w ∨ 0 < d) (qs : List ℝ) (vs : List Fl) (warned : Bool)
    (h : (mkPV er w d).ppfArray qs = ⟨some vs, warned⟩) :
    (warned = false → ∃ (xs : List ℝ) (F : ℝ → ℝ) (p : ℝ), vs = xs.map .fin ∧ (∀ x, (mkPV er w d).cdf x = .fin (F x)) ∧
      (mkPV er w d).pdf er = .fin p ∧
      List.Forall₂ (fun q x => |F x - q| ≤ 1.48e-8 * p ∧ (1 / 2 ≤ q → er ≤ x ∧ F x ≤ q) ∧ (q ≤ 1 / 2 → x ≤ er ∧ q ≤ F x)) qs xs ∧
      (qs.Pairwise (· ≤ ·) → xs.Pairwise (· ≤ ·))) ∧
    (warned = true → vs = qs.map fun q => (mkPV er w d).ppfMix (.fin q)) := by
  have hok : PV.Ok w d := ⟨hw, hd, hne⟩
  have her : (mkPV er w d).er = er := rfl
  unfold PV.ppfArray at h
  rw [if_pos hok.valid] at h
  have hgood := newtonLoop_good (hok.good (er := er)) hok.peaked 50 qs
  unfold newtonArray at h
  simp only [her] at h
  generalize newtonLoop (mkPV er w d).cdfR (mkPV er w d).pdfR 50 (qs.map fun q => ⟨q, er, true, true⟩) = st
    at h hgood
  obtain ⟨g1, g2, g3⟩ := hgood
  have key : (if false ∈ st.map (fun e => !e.failed) then PV.PpfResult.mk none false
      else ⟨some ((st.map (·.x)).map .fin), false⟩) = ⟨some vs, warned⟩ →
      warned = false ∧ ∃ (xs : List ℝ) (F : ℝ → ℝ) (p : ℝ), vs = xs.map .fin ∧ (∀ x, (mkPV er w d).cdf x = .fin (F x)) ∧
      (mkPV er w d).pdf er = .fin p ∧
      List.Forall₂ (fun q x => |F x - q| ≤ 1.48e-8 * p ∧ (1 / 2 ≤ q → er ≤ x ∧ F x ≤ q) ∧ (q ≤ 1 / 2 → x ≤ er ∧ q ≤ F x)) qs xs ∧
      (qs.Pairwise (· ≤ ·) → xs.Pairwise (· ≤ ·)) := by
    intro h
    split_ifs at h with hf
    · simp at h
    simp only [PV.PpfResult.mk.injEq, Option.some.injEq] at h
    obtain ⟨rfl, rfl⟩ := h
    refine ⟨rfl, st.map (·.x), _, _, rfl, fun x => by simp [PV.cdf, hok.valid]; rfl,
      by simp [PV.pdf, hok.valid]; rfl, ?_, ?_⟩
    · rw [← g2, List.forall₂_map_left_iff, List.forall₂_map_right_iff, List.forall₂_same]
      intro e he
      have hfe : e.failed = false := by
        by_contra hne
        apply hf
        rw [List.mem_map]
        exact ⟨e, he, by simp at hne; simp [hne]⟩
      exact ⟨(g1 e he).acc hfe, (g1 e he).side.1, (g1 e he).side.2⟩
    · intro hs
      rw [← g2, List.pairwise_map] at hs
      rw [List.pairwise_map]
      exact (hs.and g3).imp fun h => h.2 h.1
  split_ifs at h with h1 h2
  · obtain ⟨rfl, hx⟩ := key h
    exact ⟨fun _ => hx, by simp⟩
  · simp only [PV.PpfResult.mk.injEq, Option.some.injEq] at h
    obtain ⟨rfl, rfl⟩ := h
    exact ⟨by simp, fun _ => rfl⟩
  · obtain ⟨rfl, hx⟩ := key h
    exact ⟨fun _ => hx, by simp⟩

/-! ## C34 -/

/-- Newton steps on a Cauchy CDF towards the quantiles 0 and 1 never become shorter than the scale. -/
theorem cauchy_step_one (l : ℝ) {s : ℝ} (hs : 0 < s) (x : ℝ) : s ≤ |(cauchyCdf l s x - 1) / cauchyPdf l s x| := by
  have hpi := Real.pi_pos
  set u := (x - l) / s with hu
  have h1 := Real.arctan_lt_pi_div_two u
  have hc : Real.cos (Real.arctan u) ^ 2 = 1 / (1 + u ^ 2) := Real.cos_sq_arctan u
  have hsin : Real.sin (Real.pi / 2 - Real.arctan u) = Real.cos (Real.arctan u) := Real.sin_pi_div_two_sub _
  have h2 : Real.sin (Real.pi / 2 - Real.arctan u) ≤ Real.pi / 2 - Real.arctan u := Real.sin_le (by linarith)
  have h3 : Real.cos (Real.arctan u) ≤ 1 := Real.cos_le_one _
  have h4 : 0 < Real.cos (Real.arctan u) := Real.cos_arctan_pos u
  have h5 : 1 / (1 + u ^ 2) ≤ Real.pi / 2 - Real.arctan u := by
    rw [← hc]; rw [hsin] at h2; nlinarith
  have h6 : 1 ≤ (1 + u ^ 2) * (Real.pi / 2 - Real.arctan u) := by
    have : 0 < 1 + u ^ 2 := by positivity
    rwa [div_le_iff₀ this, mul_comm] at h5
  have e : (cauchyCdf l s x - 1) / cauchyPdf l s x = -(s * ((1 + u ^ 2) * (Real.pi / 2 - Real.arctan u))) := by
    have hp := (cauchyPdf_pos hs l x).ne'
    rw [div_eq_iff hp]
    simp only [cauchyCdf, cauchyPdf, ← hu]
    field_simp
    ring
  rw [e, abs_neg, abs_of_pos (by nlinarith)]
  nlinarith

theorem cauchy_step_zero (l : ℝ) {s : ℝ} (hs : 0 < s) (x : ℝ) : s ≤ |(cauchyCdf l s x - 0) / cauchyPdf l s x| := by
  have h := cauchy_step_one l hs (l - (x - l))
  have e1 : cauchyPdf l s (l - (x - l)) = cauchyPdf l s x := by
    rw [← cauchyPdf_symm]; congr 1; ring
  have e2 : cauchyCdf l s (l - (x - l)) - 1 = -(cauchyCdf l s x - 0) := by
    have : (l - (x - l) - l) / s = -((x - l) / s) := by ring
    simp only [cauchyCdf, this, Real.arctan_neg]
    ring
  rwa [e1, e2, neg_div, abs_neg] at h

/-- state of the iteration after the first step when 1/2 is among the quantiles -/
def MedianDone (c : ℝ) (qs : List ℝ) (st : List NEl) : Prop :=
  st.map (·.q) = qs ∧ ∀ e ∈ st, e.nz = true ∧ (e.q = 1 / 2 → e.x = c ∧ e.failed = false)

theorem medianDone_loop {F p : ℝ → ℝ} {c : ℝ} (hp : ∀ x, 0 < p x) (hc : F c = 1 / 2) (qs : List ℝ) (hmem : 1 / 2 ∈ qs) (n : ℕ)
    (G : NEl → Prop) (hG0 : ∀ q ∈ qs, G (NEl.step F p ⟨q, c, true, true⟩)) (hG : ∀ e, G e → G (NEl.step F p e))
    (hstop : ∀ e, G e → F e.x - e.q = 0 → G { e with failed := false })
    (hstop0 : (∀ q ∈ qs, q = 1 / 2) → ∀ q ∈ qs, G ⟨q, c, false, true⟩) :
    MedianDone c qs (newtonLoop F p (n + 1) (qs.map fun q => ⟨q, c, true, true⟩)) ∧
      ∀ e ∈ newtonLoop F p (n + 1) (qs.map fun q => ⟨q, c, true, true⟩), G e := by
  have htol := newtonTol_pos
  have hstepM : ∀ st, (MedianDone c qs st ∧ ∀ e ∈ st, G e) →
      MedianDone c qs (st.map (NEl.step F p)) ∧ ∀ e ∈ st.map (NEl.step F p), G e := by
    rintro st ⟨⟨h1, h2⟩, h3⟩
    refine ⟨⟨?_, ?_⟩, ?_⟩
    · rw [← h1, List.map_map]
      apply List.map_congr_left
      intro e _
      simp [step_eq hp]
    · intro e he
      obtain ⟨e0, he0, rfl⟩ := List.mem_map.1 he
      rw [step_eq hp]
      refine ⟨rfl, fun hq => ?_⟩
      simp only at hq ⊢
      rw [((h2 e0 he0).2 hq).1, hq, hc]
      simp [htol]
    · intro e he
      obtain ⟨e0, he0, rfl⟩ := List.mem_map.1 he
      exact hG _ (h3 _ he0)
  have hfirst : MedianDone c qs ((qs.map fun q => (⟨q, c, true, true⟩ : NEl)).map (NEl.step F p)) ∧
      ∀ e ∈ (qs.map fun q => (⟨q, c, true, true⟩ : NEl)).map (NEl.step F p), G e := by
    refine ⟨⟨?_, ?_⟩, ?_⟩
    · simp [List.map_map, Function.comp_def, step_eq hp]
    · intro e he
      simp only [List.map_map, List.mem_map, Function.comp_def] at he
      obtain ⟨q, -, rfl⟩ := he
      rw [step_eq hp]
      refine ⟨rfl, fun hq => ?_⟩
      simp only at hq ⊢
      rw [hq, hc]
      simp [htol]
    · intro e he
      simp only [List.map_map, List.mem_map, Function.comp_def] at he
      obtain ⟨q, hq, rfl⟩ := he
      exact hG0 q hq
  unfold newtonLoop
  split_ifs with h1 h2
  · have hall : ∀ q ∈ qs, q = 1 / 2 := by
      intro q hq
      have := h1 ⟨q, c, true, true⟩ (List.mem_map.2 ⟨q, hq, rfl⟩)
      simp only [hc] at this
      linarith
    refine ⟨⟨by simp [List.map_map, Function.comp_def], ?_⟩, ?_⟩
    · intro e he
      simp only [List.map_map, List.mem_map, Function.comp_def] at he
      obtain ⟨q, hq, rfl⟩ := he
      exact ⟨rfl, fun _ => ⟨rfl, rfl⟩⟩
    · intro e he
      simp only [List.map_map, List.mem_map, Function.comp_def] at he
      obtain ⟨q, hq, rfl⟩ := he
      exact hstop0 hall q hq
  · exact absurd (h2 ⟨1 / 2, c, true, true⟩ (List.mem_map.2 ⟨_, hmem, rfl⟩)) (hp _).ne'
  · simp only
    split_ifs
    · exact hfirst
    · refine newtonLoop_inv hp (fun st => MedianDone c qs st ∧ ∀ e ∈ st, G e) hstepM ?_ n _ hfirst
      rintro st ⟨⟨h1, h2⟩, h3⟩ hz
      refine ⟨⟨by rw [← h1, List.map_map]; rfl, ?_⟩, ?_⟩
      · intro e he
        obtain ⟨e0, he0, rfl⟩ := List.mem_map.1 he
        exact ⟨(h2 e0 he0).1, fun hq => ⟨((h2 e0 he0).2 hq).1, rfl⟩⟩
      · intro e he
        obtain ⟨e0, he0, rfl⟩ := List.mem_map.1 he
        exact hstop _ (h3 _ he0) (hz _ he0)

/-- C34 is false of the code: without Doppler broadening, `ppf` returns `None` for every array that contains the median
together with the quantile 0 or 1. -/
theorem C34_refuted (er : ℝ) {w : ℝ} (hw : 4 * 1.48e-8 ≤ w) (qs : List ℝ) (hmem : 1 / 2 ∈ qs) (h01 : 0 ∈ qs ∨ 1 ∈ qs) :
    ((mkPV er w 0).ppfArray qs).values = none := by
  have hpos : 0 < w := by linarith
  have hok : PV.Ok w 0 := ⟨hpos.le, le_rfl, Or.inl hpos⟩
  have her : (mkPV er w 0).er = er := rfl
  obtain ⟨e1, e2⟩ := mkPV_doppler_zero er hpos
  have hF : (mkPV er w 0).cdfR = cauchyCdf er (w / 4) := by
    funext x; simp [PV.cdfR, e1, e2, her]
  have hp : (mkPV er w 0).pdfR = cauchyPdf er (w / 4) := by
    funext x; simp [PV.pdfR, e1, e2, her]
  have hs : 0 < w / 4 := by linarith
  have hgood := cauchy_good er hs
  have hhalf : cauchyCdf er (w / 4) er = 1 / 2 := by rw [← hF]; exact hok.half
  have htol : newtonTol ≤ w / 4 := by unfold newtonTol; linarith
  have hstep : ∀ e : NEl, (e.q = 0 ∨ e.q = 1) → (NEl.step (cauchyCdf er (w / 4)) (cauchyPdf er (w / 4)) e).failed = true := by
    intro e he
    rw [step_eq hgood.pos]
    simp only [decide_eq_true_eq]
    rcases he with he | he
    · rw [he]; exact htol.trans (cauchy_step_zero er hs e.x)
    · rw [he]; exact htol.trans (cauchy_step_one er hs e.x)
  have hq : ∀ e : NEl, (NEl.step (cauchyCdf er (w / 4)) (cauchyPdf er (w / 4)) e).q = e.q := fun e => by
    rw [step_eq hgood.pos]
  obtain ⟨⟨m1, m2⟩, m3⟩ := medianDone_loop hgood.pos hhalf qs hmem 49 (fun e => (e.q = 0 ∨ e.q = 1) → e.failed = true)
    (fun q _ h => hstep _ (by rwa [hq] at h)) (fun e _ h => hstep _ (by rwa [hq] at h))
    (by
      intro e _ hz he
      exfalso
      have h1 := hgood.gt_zero e.x
      have h2 := hgood.lt_one e.x
      simp only at he
      rcases he with he | he <;> rw [he] at hz <;> linarith)
    (by
      intro hall q _ _
      exfalso
      rcases h01 with h | h <;> have := hall _ h <;> norm_num at this)
  unfold PV.ppfArray
  rw [if_pos hok.valid, hF, hp, her]
  unfold newtonArray
  simp only
  generalize newtonLoop (cauchyCdf er (w / 4)) (cauchyPdf er (w / 4)) 50 (qs.map fun q => ⟨q, er, true, true⟩) = st at *
  have hfail : false ∈ st.map (fun e => !e.failed) := by
    have : ∃ q ∈ qs, q = 0 ∨ q = 1 := h01.elim (fun h => ⟨0, h, Or.inl rfl⟩) (fun h => ⟨1, h, Or.inr rfl⟩)
    obtain ⟨q, hq, h⟩ := this
    rw [← m1] at hq
    obtain ⟨e, he, rfl⟩ := List.mem_map.1 hq
    exact List.mem_map.2 ⟨e, he, by simp [m3 e he h]⟩
  have hnall : st.all (·.failed) = false := by
    rw [← m1] at hmem
    obtain ⟨e, he, hq⟩ := List.mem_map.1 hmem
    rw [List.all_eq_false]
    exact ⟨e, he, by simp [((m2 e he).2 hq).2]⟩
  simp only [hnall]
  simp [hfail]

/-- ... so that the equal-probability grid of such a resonance for full coverage is `None`. -/
theorem C34_grid_none : ∃ r, mkPseudoVoigt exConst exGround exExcited 11 0 none = .ok r ∧ r.probGrid (.cov 1) 3 = .ok none := by
  obtain ⟨r, hr, he, hd, hp⟩ := exPseudoVoigt 0
  refine ⟨r, hr, ?_⟩
  have h0 : dopplerWidth exConst 11 0 2 = 0 := by simp [dopplerWidth]
  rw [h0] at hd
  have hN := C34_refuted 2 (w := 4) (by norm_num) [0, 1 / 2, 1] (by simp) (by simp)
  unfold Reso.probGrid
  have hl : linspace (.fin (0.5 * (1 - 1))) (.fin (0.5 * (1 + 1))) 3 = .ok ([0, 1 / 2, 1].map .fin) := by
    have := linspace_nat (0.5 * (1 - 1)) (0.5 * (1 + 1)) 1
    norm_num at this
    norm_num [this, List.range_succ]
  simp only [Bind.bind, Except.bind, hl, hd, hp, PV.toDist, if_true]
  simp [PV.finList, ← hN]

theorem ppfArray_length (d : PV) (qs : List ℝ) (vs : List Fl) (h : (d.ppfArray qs).values = some vs) (hp : ∀ x, 0 < d.pdfR x) :
    vs.length = qs.length := by
  have hl : ((newtonLoop d.cdfR d.pdfR 50 (qs.map fun q => ⟨q, d.er, true, true⟩)).map (·.q)).length = qs.length := by
    refine newtonLoop_inv hp (fun st => (st.map (·.q)).length = qs.length) ?_ ?_ 50 _ (by simp)
    · intro st h; simpa using h
    · intro st h _; simpa using h
  rw [List.length_map] at hl
  unfold PV.ppfArray newtonArray at h
  simp only at h
  generalize newtonLoop d.cdfR d.pdfR 50 (qs.map fun q => ⟨q, d.er, true, true⟩) = st at *
  split_ifs at h
  · simp only at h
    split_ifs at h
    simp only [Option.some.injEq] at h
    rw [← h]; simpa using hl
  · simp only [Option.some.injEq] at h
    rw [← h]; simp
  · simp only at h
    split_ifs at h
    simp only [Option.some.injEq] at h
    rw [← h]; simpa using hl
  · simp only [Option.some.injEq] at h
    rw [← h]; simp

/-- C34, the part that holds: `ppf` returns as many numbers as it is given quantiles whenever all of these are equal or
mirror images `q`, `1 - q` of each other - in particular for the two ends of a coverage interval. Missing: arbitrary arrays (false,
see `C34_refuted`). -/
theorem C34_partial (er w d : ℝ) (hw : 0 ≤ w) (hd : 0 ≤ d) (hne : 0 < w ∨ 0 < d) (q : ℝ) (qs : List ℝ)
    (hq : ∀ q' ∈ qs, q' = q ∨ q' = 1 - q) :
    ∃ vs, ((mkPV er w d).ppfArray qs).values = some vs ∧ vs.length = qs.length := by
  have hok : PV.Ok w d := ⟨hw, hd, hne⟩
  have her : (mkPV er w d).er = er := rfl
  suffices h : ∃ vs, ((mkPV er w d).ppfArray qs).values = some vs by
    obtain ⟨vs, hv⟩ := h
    exact ⟨vs, hv, ppfArray_length _ _ _ hv hok.good.pos⟩
  obtain ⟨-, y, b, h2⟩ := newtonLoop_mirror (hok.good (er := er)) hok.peaked hq 50
  unfold PV.ppfArray newtonArray
  rw [if_pos hok.valid, her]
  simp only
  generalize newtonLoop (mkPV er w d).cdfR (mkPV er w d).pdfR 50 (qs.map fun q => ⟨q, er, true, true⟩) = st at *
  have hany : st.any (fun e => !e.nz && e.failed) = false := by
    rw [List.any_eq_false]
    intro e he
    simp [(h2 e he).1]
  rw [hany]
  simp only [Bool.false_eq_true, if_false]
  cases b with
  | true =>
    have : st.all (·.failed) = true := by
      rw [List.all_eq_true]
      intro e he
      exact (h2 e he).2.1
    rw [this]
    exact ⟨_, rfl⟩
  | false =>
    by_cases hall : st.all (·.failed) = true
    · rw [hall]; exact ⟨_, rfl⟩
    · rw [if_neg hall]
      have : false ∉ st.map (fun e => !e.failed) := by
        intro h
        obtain ⟨e, he, hf⟩ := List.mem_map.1 h
        rw [(h2 e he).2.1] at hf
        simp at hf
      simp only [if_neg this]
      exact ⟨_, rfl⟩

/-- C34: the coverage interval of a pseudo-Voigt or Voigt resonance exists for every coverage. -/
theorem C34_coverage_interval {r : Reso} (h : IsPseudoVoigt r ∨ IsVoigt r) (c : ℝ) : ∃ ci, r.coverageInterval c = .ok ci := by
  obtain ⟨w, d, hok, hppf, hcdf, hp⟩ : ∃ w d, PV.Ok w d ∧ r.dist.ppf = (mkPV r.er w d).toDist.ppf ∧
      r.dist.cdf = (mkPV r.er w d).toDist.cdf ∧ r.params = [] := by
    rcases h with h | h
    · obtain ⟨w, d, hok, -, hd, hp⟩ := h.inv
      exact ⟨w, d, hok, by rw [hd], by rw [hd], hp⟩
    · obtain ⟨w, d, hok, -, hd, hp⟩ := h.inv
      exact ⟨w, d, hok, by rw [hd]; rfl, by rw [hd]; rfl, hp⟩
  obtain ⟨vs, hv, hl⟩ := C34_partial r.er w d hok.w0 hok.d0 hok.ne (0.5 * (1 - c)) [0.5 * (1 - c), 0.5 * (1 + c)] (by
    intro q' hq'
    simp only [List.mem_cons, List.not_mem_nil, or_false] at hq'
    rcases hq' with rfl | rfl
    · exact Or.inl rfl
    · right; ring)
  have e : r.dist.ppf r.params [.fin (0.5 * (1 - c)), .fin (0.5 * (1 + c))] = .ok (some vs) := by
    rw [hppf, hp, ← hv]
    simp [PV.toDist, PV.finList]
  match vs, hl with
  | [lo, hi], _ =>
    unfold Reso.coverageInterval
    simp only [e, Bind.bind, Except.bind, hcdf]
    by_cases hn : lo.isNeg
    · simp [hn, PV.toDist]
    · simp [hn]

/-- C34: if the median is among the quantiles, the fallback is never used. -/
theorem C34_median_no_fallback (er w d : ℝ) (hw : 0 ≤ w) (hd : 0 ≤ d) (hne : 0 < w ∨ 0 < d) (qs : List ℝ) (hmem : 1 / 2 ∈ qs) :
    ((mkPV er w d).ppfArray qs).warned = false := by
  have hok : PV.Ok w d := ⟨hw, hd, hne⟩
  have her : (mkPV er w d).er = er := rfl
  obtain ⟨⟨m1, m2⟩, -⟩ := medianDone_loop (hok.good (er := er)).pos hok.half qs hmem 49 (fun _ => True)
    (by simp) (by simp) (by simp) (by simp)
  unfold PV.ppfArray newtonArray
  rw [if_pos hok.valid, her]
  simp only
  generalize newtonLoop (mkPV er w d).cdfR (mkPV er w d).pdfR 50 (qs.map fun q => ⟨q, er, true, true⟩) = st at *
  have hnall : st.all (·.failed) = false := by
    rw [← m1] at hmem
    obtain ⟨e, he, hq⟩ := List.mem_map.1 hmem
    rw [List.all_eq_false]
    exact ⟨e, he, by simp [((m2 e he).2 hq).2]⟩
  have key : ∀ b : Prop, [Decidable b] → ∀ vs, (if b then PV.PpfResult.mk none false else ⟨some vs, false⟩).warned = false := by
    intro b _ vs
    split_ifs <;> rfl
  simp only [hnall, Bool.false_eq_true, if_false, ite_self, key]

/-- The pseudo-Voigt distributions meet the hypothesis of `C11_ends_exact` and `C14_sum_grid_limits`. -/
theorem C11_pseudoVoigt_lengthPreserving (er w d : ℝ) (hw : 0 ≤ w) (hd : 0 ≤ d) (hne : 0 < w ∨ 0 < d) :
    (mkPV er w d).toDist.LengthPreserving ∧ (mkPV er w d).toSemiDist.LengthPreserving := by
  have hok : PV.Ok w d := ⟨hw, hd, hne⟩
  have fl : ∀ (qs : List Fl) (l : List ℝ), PV.finList qs = some l → l.length = qs.length := by
    intro qs
    induction qs with
    | nil => intro l h; simp [PV.finList] at h; simp [← h]
    | cons q qs ih =>
      intro l h
      cases q with
      | fin q =>
        simp only [PV.finList, Option.map_eq_some_iff] at h
        obtain ⟨l', h1, rfl⟩ := h
        simp [ih l' h1]
      | _ => simp [PV.finList] at h
  have key : (mkPV er w d).toDist.LengthPreserving := by
    intro ps qs g h
    simp only [PV.toDist] at h
    split_ifs at h
    split at h
    · rename_i l hl
      simp only [Except.ok.injEq] at h
      rw [ppfArray_length _ _ _ h hok.good.pos, fl qs l hl]
    · simp at h
  exact ⟨key, key⟩

/-! ## C71 -/

/-- On narrow Doppler-free resonances the root search stops after its first step, whatever the quantile is. -/
theorem narrow_ppf (er : ℝ) {w : ℝ} (hw : 0 < w) (hn : w * Real.pi < 8 * 1.48e-8) (qs : List ℝ) (hq : ∀ q ∈ qs, 0 ≤ q ∧ q ≤ 1)
    (hne : ∃ q ∈ qs, q ≠ 1 / 2) :
    (mkPV er w 0).ppfArray qs = ⟨some (qs.map fun q => .fin (er + (q - 1 / 2) * (Real.pi * w / 4))), false⟩ := by
  have hok : PV.Ok w 0 := ⟨hw.le, le_rfl, Or.inl hw⟩
  have her : (mkPV er w 0).er = er := rfl
  obtain ⟨e1, e2⟩ := mkPV_doppler_zero er hw
  have hF : (mkPV er w 0).cdfR = cauchyCdf er (w / 4) := by
    funext x; simp [PV.cdfR, e1, e2, her]
  have hp : (mkPV er w 0).pdfR = cauchyPdf er (w / 4) := by
    funext x; simp [PV.pdfR, e1, e2, her]
  have hpi := Real.pi_pos
  have hgood := cauchy_good er (show 0 < w / 4 by linarith)
  have hhalf : cauchyCdf er (w / 4) er = 1 / 2 := by rw [← hF]; exact hok.half
  have hpk : cauchyPdf er (w / 4) er = 4 / (Real.pi * w) := by
    simp only [cauchyPdf]; simp; field_simp
  have hdp : ∀ q, (cauchyCdf er (w / 4) er - q) / cauchyPdf er (w / 4) er = (1 / 2 - q) * (Real.pi * w / 4) := by
    intro q; rw [hhalf, hpk]; field_simp
  have hlt : ∀ q, 0 ≤ q → q ≤ 1 → |(1 / 2 - q) * (Real.pi * w / 4)| < newtonTol := by
    intro q h0 h1
    rw [abs_mul, abs_of_pos (show 0 < Real.pi * w / 4 by positivity)]
    have : |1 / 2 - q| ≤ 1 / 2 := by rw [abs_le]; constructor <;> linarith
    unfold newtonTol
    have : |1 / 2 - q| * (Real.pi * w / 4) ≤ 1 / 2 * (Real.pi * w / 4) := mul_le_mul_of_nonneg_right this (by positivity)
    linarith
  have hstep : ∀ q ∈ qs, NEl.step (cauchyCdf er (w / 4)) (cauchyPdf er (w / 4)) ⟨q, er, true, true⟩ =
      ⟨q, er + (q - 1 / 2) * (Real.pi * w / 4), false, true⟩ := by
    intro q hq'
    rw [step_eq hgood.pos]
    simp only [hdp]
    have := hlt q (hq q hq').1 (hq q hq').2
    simp only [NEl.mk.injEq, true_and, and_true]
    refine ⟨by ring, ?_⟩
    simpa using this
  have hst : newtonLoop (cauchyCdf er (w / 4)) (cauchyPdf er (w / 4)) 50 (qs.map fun q => ⟨q, er, true, true⟩) =
      qs.map fun q => ⟨q, er + (q - 1 / 2) * (Real.pi * w / 4), false, true⟩ := by
    have hmap : (qs.map fun q => (⟨q, er, true, true⟩ : NEl)).map (NEl.step (cauchyCdf er (w / 4)) (cauchyPdf er (w / 4))) =
        qs.map fun q => ⟨q, er + (q - 1 / 2) * (Real.pi * w / 4), false, true⟩ := by
      rw [List.map_map]
      exact List.map_congr_left hstep
    obtain ⟨q0, hq0, hne0⟩ := hne
    have hn1 : ¬ ∀ e ∈ qs.map fun q => (⟨q, er, true, true⟩ : NEl), cauchyCdf er (w / 4) e.x - e.q = 0 := by
      intro h
      have := h _ (List.mem_map.2 ⟨q0, hq0, rfl⟩)
      simp only [hhalf] at this
      exact hne0 (by linarith)
    have hn2 : ¬ ∀ e ∈ qs.map fun q => (⟨q, er, true, true⟩ : NEl), cauchyPdf er (w / 4) e.x = 0 := by
      intro h
      exact (hgood.pos _).ne' (h _ (List.mem_map.2 ⟨q0, hq0, rfl⟩))
    unfold newtonLoop
    rw [if_neg hn1, if_neg hn2]
    simp only [hmap]
    rw [if_pos]
    intro e he _
    obtain ⟨q, -, rfl⟩ := List.mem_map.1 he
    rfl
  unfold PV.ppfArray newtonArray
  rw [if_pos hok.valid, her, hF, hp, hst]
  obtain ⟨q0, hq0, hne0⟩ := hne
  have hq1 : ¬ qs = [] := by rintro rfl; simp at hq0
  have h1 : (qs.map fun q => (⟨q, er + (q - 1 / 2) * (Real.pi * w / 4), false, true⟩ : NEl)).any (fun e => !e.nz && e.failed) = false := by
    simp
  have h2 : (qs.map fun q => (⟨q, er + (q - 1 / 2) * (Real.pi * w / 4), false, true⟩ : NEl)).all (·.failed) = false := by
    rw [List.all_eq_false]
    exact ⟨_, List.mem_map.2 ⟨q0, hq0, rfl⟩, by simp⟩
  simp only [h1, h2, Bool.false_eq_true, if_false, List.map_map]
  rw [if_neg]
  · rfl
  · simp

/-- C71 is false of the code: because the tolerance of the root search is an absolute energy, for every Doppler-free
resonance narrower than 0.03 eV the "converged" value for the quantile 0.99 has a CDF below 5/6. -/
theorem C71_refuted (er : ℝ) {w : ℝ} (hw : 0 < w) (hn : w ≤ 3e-8) :
    ∃ x F, (mkPV er w 0).ppfArray [0.01, 0.99] = ⟨some [.fin (2 * er - x), .fin x], false⟩ ∧
      (mkPV er w 0).cdf x = .fin F ∧ F ≤ 5 / 6 := by
  have hpi := Real.pi_lt_d2
  have hpi0 := Real.pi_pos
  have hok : PV.Ok w 0 := ⟨hw.le, le_rfl, Or.inl hw⟩
  obtain ⟨e1, e2⟩ := mkPV_doppler_zero er hw
  have her : (mkPV er w 0).er = er := rfl
  refine ⟨er + (0.99 - 1 / 2) * (Real.pi * w / 4), (mkPV er w 0).cdfR (er + (0.99 - 1 / 2) * (Real.pi * w / 4)), ?_,
    by rw [PV.cdf, if_pos hok.valid], ?_⟩
  · rw [narrow_ppf er hw (by nlinarith) [0.01, 0.99] (by norm_num) ⟨0.01, by simp, by norm_num⟩]
    simp only [List.map_cons, List.map_nil, PV.PpfResult.mk.injEq, Option.some.injEq, List.cons.injEq, Fl.fin.injEq, and_true]
    ring
  · simp only [PV.cdfR, e1, e2, her, sub_self, zero_mul, zero_add, one_mul, cauchyCdf]
    have e : (er + (0.99 - 1 / 2) * (Real.pi * w / 4) - er) / (w / 4) = 0.49 * Real.pi := by
      field_simp; ring
    rw [e]
    have hs : (1.73 : ℝ) ≤ Real.sqrt 3 := Real.le_sqrt_of_sq_le (by norm_num)
    have h1 : Real.arctan (0.49 * Real.pi) ≤ Real.pi / 3 := by
      rw [← Real.arctan_sqrt_three]
      exact Real.arctan_strictMono.monotone (by linarith)
    have h2 : 1 / Real.pi * Real.arctan (0.49 * Real.pi) ≤ 1 / 3 := by
      rw [one_div_mul_eq_div, div_le_iff₀ hpi0]; linarith
    linarith

/-- C71, the part that holds: the error of the converged values is at most 1.9e-8 MeV divided by the total width. Missing: a bound
independent of the width (false). -/
theorem C71_partial (er w d : ℝ) (hw : 0 ≤ w) (hd : 0 ≤ d) (hne : 0 < w ∨ 0 < d) (qs : List ℝ) (vs : List Fl)
    (h : (mkPV er w d).ppfArray qs = ⟨some vs, false⟩) :
    ∃ (xs : List ℝ) (F : ℝ → ℝ), vs = xs.map .fin ∧ (∀ x, (mkPV er w d).cdf x = .fin (F x)) ∧
      List.Forall₂ (fun q x => |F x - q| ≤ 1.9e-8 / (mkPV er w d).bigGamma) qs xs := by
  have hok : PV.Ok w d := ⟨hw, hd, hne⟩
  obtain ⟨xs, F, p, h1, h2, h3, h4, -⟩ := (C33_array er w d hw hd hne qs vs false h).1 rfl
  refine ⟨xs, F, h1, h2, h4.imp fun q x hqx => hqx.1.trans ?_⟩
  have hpp : p = (mkPV er w d).pdfR er := by
    simp [PV.pdf, hok.valid] at h3; exact h3.symm
  have hG := hok.gamma_pos (er := er)
  set G := (mkPV er w d).bigGamma with hGdef
  have hpi := Real.pi_gt_d2
  have hpi0 := Real.pi_pos
  have her : (mkPV er w d).er = er := rfl
  have hc : cauchyPdf er (mkPV er w d).cauchyScale er ≤ 1.28 / G := by
    have e : (mkPV er w d).cauchyScale = G / 4 := by
      show 0.5 * (0.5 * G) = G / 4
      ring
    rw [e]
    simp only [cauchyPdf]
    simp
    rw [← div_eq_mul_inv, div_div, div_le_div_iff₀ (by positivity) hG]
    nlinarith
  have hn : normPdf er (mkPV er w d).normScale er ≤ 1.28 / G := by
    have hs := sqrt_log_two_pos
    have e : (mkPV er w d).normScale = G / (2 * Real.sqrt (Real.log 2)) / Real.sqrt 2 := rfl
    have hσ : 0 < (mkPV er w d).normScale := hok.normScale_pos
    have h2 : Real.sqrt (2 * Real.pi) = Real.sqrt 2 * Real.sqrt Real.pi := Real.sqrt_mul (by norm_num) _
    have e2 : normPdf er (mkPV er w d).normScale er = 2 * Real.sqrt (Real.log 2) / (G * Real.sqrt Real.pi) := by
      unfold normPdf
      rw [e, h2]
      simp
      field_simp
    rw [e2, div_le_div_iff₀ (by positivity) hG]
    have h3 : Real.sqrt (Real.log 2) ≤ 0.84 := Real.sqrt_le_iff.2 ⟨by norm_num, by have := Real.log_two_lt_d9; norm_num; linarith⟩
    have h4 : 1.7 ≤ Real.sqrt Real.pi := Real.le_sqrt_of_sq_le (by norm_num; linarith)
    nlinarith
  have hη := hok.eta_bounds (er := er)
  have : p ≤ 1.28 / G := by
    rw [hpp]
    simp only [PV.pdfR, her]
    calc _ ≤ (1 - (mkPV er w d).eta) * (1.28 / G) + (mkPV er w d).eta * (1.28 / G) :=
          add_le_add (mul_le_mul_of_nonneg_left hn (by linarith [hη.2])) (mul_le_mul_of_nonneg_left hc hη.1)
      _ = _ := by ring
  calc 1.48e-8 * p ≤ 1.48e-8 * (1.28 / G) := mul_le_mul_of_nonneg_left this (by norm_num)
    _ ≤ _ := by
      rw [← mul_div_assoc]
      exact div_le_div_of_nonneg_right (by norm_num) hG.le

/-! ## Examples -/

/-- a narrow level just above the ground state -/
noncomputable def exNarrow : Level := state "1/2^-_1" 1 (-1) 1e-10 [("3/2^-_1", 4e-9)]

/-- The warning of `C18_partial` does occur. -/
example : ∃ r w ci x, mkPseudoVoigt exConst exGround exNarrow 11 0 none = .ok r ∧ exNarrow.width = .ok w ∧
    PV.Ok w (dopplerWidth exConst 11 0 r.er) ∧ r.coverageInterval 0.98 = .ok ci ∧ ci.warnNegative = some x := by
  have hw : exNarrow.width = .ok 4e-9 := by
    simp [Level.width, Level.partialWidths, exNarrow, state, lookup, pyNumSum, Bind.bind, Except.bind, pure, Except.pure]
  have h0 : dopplerWidth exConst 11 0 1e-10 = 0 := by simp [dopplerWidth]
  obtain ⟨r, hr, he⟩ : ∃ r, mkResonance exConst exGround exNarrow none noRecoil = .ok r ∧ r.er = 1e-10 := by
    simp [mkResonance, statFactor, fdiv, branchingRatio, integratedCS, exGround, exNarrow, groundState, state,
      Level.partialWidths, lookup, Bind.bind, Except.bind, noRecoil]
    norm_num
  have hok : PV.Ok 4e-9 0 := ⟨by norm_num, le_rfl, Or.inl (by norm_num)⟩
  have hpi := Real.pi_gt_d2
  have hpi' := Real.pi_lt_d2
  refine ⟨{ r with dist := (mkPV r.er 4e-9 0).toDist, params := [] }, 4e-9, ?_⟩
  have hppf := narrow_ppf r.er (w := 4e-9) (by norm_num) (by linarith) [0.01, 0.99] (by norm_num) ⟨0.01, by simp, by norm_num⟩
  have hneg : (Fl.fin (r.er + (0.01 - 1 / 2) * (Real.pi * 4e-9 / 4))).isNeg := by
    show r.er + (0.01 - 1 / 2) * (Real.pi * 4e-9 / 4) < 0
    rw [he]; linarith
  obtain ⟨ci, x, hci, hx⟩ : ∃ ci x,
      ({ r with dist := (mkPV r.er 4e-9 0).toDist, params := [] } : Reso).coverageInterval 0.98 = .ok ci ∧
        ci.warnNegative = some x := by
    have e1 : (0.5 * (1 - 0.98) : ℝ) = 0.01 := by norm_num
    have e2 : (0.5 * (1 + 0.98) : ℝ) = 0.99 := by norm_num
    unfold Reso.coverageInterval
    simp only [PV.toDist, e1, e2, if_true, PV.finList, Option.map_some, hppf, Bind.bind, Except.bind, List.map_cons,
      List.map_nil]
    rw [if_pos hneg]
    exact ⟨_, _, rfl, rfl⟩
  refine ⟨ci, x, ?_, hw, by rw [he, h0]; exact hok, hci, hx⟩
  simp [mkPseudoVoigt, hr, hw, getDopplerWidth_ok exConst (show (11 : ℝ) ≠ 0 by norm_num), Bind.bind, Except.bind, he, h0]

/-- The converged case of `C33_array` and `C71_partial`. -/
example : ∃ vs, (mkPV 2 1e-9 0).ppfArray [0.1, 0.5, 0.9] = ⟨some vs, false⟩ := by
  have hpi' := Real.pi_lt_d2
  exact ⟨_, narrow_ppf 2 (w := 1e-9) (by norm_num) (by linarith) [0.1, 0.5, 0.9] (by norm_num) ⟨0.1, by simp, by norm_num⟩⟩

/-- Hypotheses of `C34_refuted` and `C34_partial`. -/
example : (4 * 1.48e-8 ≤ (4 : ℝ)) ∧ ((1 / 2 : ℝ) ∈ [(0 : ℝ), 1 / 2, 1]) ∧
    ∀ q' ∈ [(0.01 : ℝ), 0.99], q' = 0.01 ∨ q' = 1 - 0.01 := by norm_num

end Ries
