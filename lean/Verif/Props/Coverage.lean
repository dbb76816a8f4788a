import Verif.Lemmas.Coverage
import Verif.Props.Voigt
import Verif.Props.Grid

/-!
# C80 – C83: quantiles, coverage intervals and grids of pseudo-Voigt and Voigt resonances
-/

open MeasureTheory Set

namespace Ries

/-! ## C80 -/

/-- C80: the quantile function of a pseudo-Voigt distribution whose widths add up to at most 2.5e22 ε⁴ MeV converges for every
nonempty array of quantiles between ε and 1 - ε (for example, between 1e-5 and 0.99999 for widths up to 250 MeV): it returns an array of numbers, without a warning; each value lies
between the centre and the exact quantile, and the CDF misses the quantile by at most 1.9e-8 MeV divided by the larger of the two
widths. Sorted quantiles give sorted energies. -/
theorem C80_array (er w d : ℝ) (hw : 0 ≤ w) (hd : 0 ≤ d) (hne : 0 < w ∨ 0 < d)
    {ε : ℝ} (hε : 0 < ε) (hG : 2 * Real.sqrt (Real.log 2) * d + w ≤ 2.5e22 * ε ^ 4) (qs : List ℝ) (hqs : qs ≠ [])
    (hq : ∀ q ∈ qs, ε ≤ q ∧ q ≤ 1 - ε) :
    ∃ (xs : List ℝ) (F : ℝ → ℝ), (mkPV er w d).ppfArray qs = ⟨some (xs.map .fin), false⟩ ∧
      (∀ x, (mkPV er w d).cdf x = .fin (F x)) ∧
      List.Forall₂ (fun q x => |F x - q| ≤ 1.9e-8 / max w (2 * Real.sqrt (Real.log 2) * d) ∧
        (1 / 2 ≤ q → er ≤ x ∧ F x ≤ q) ∧ (q ≤ 1 / 2 → x ≤ er ∧ q ≤ F x)) qs xs ∧
      (qs.Pairwise (· ≤ ·) → xs.Pairwise (· ≤ ·)) := by
  have hok : PV.Ok w d := ⟨hw, hd, hne⟩
  obtain ⟨xs, hx⟩ := hok.ppfArray_central (er := er) hε (hok.gamma_le.trans hG) hqs hq
  obtain ⟨xs', e, h1, h2⟩ := hok.converged hx
  have : xs' = xs := (List.map_injective_iff.2 (fun a b h => by simpa using h) e).symm
  subst this
  refine ⟨xs', _, hx, fun x => by simp [PV.cdf, hok.valid], h1.imp fun q x h => ⟨h.1.trans ?_, h.2⟩, h2⟩
  exact hok.error_le

/-- C80 for a single quantile. -/
theorem C80_scalar (er w d : ℝ) (hw : 0 ≤ w) (hd : 0 ≤ d) (hne : 0 < w ∨ 0 < d)
    {ε : ℝ} (hε : 0 < ε) (hG : 2 * Real.sqrt (Real.log 2) * d + w ≤ 2.5e22 * ε ^ 4) (q : ℝ) (h0 : ε ≤ q) (h1 : q ≤ 1 - ε) :
    ∃ x F p, (mkPV er w d).ppfScalar q = (.fin x, false) ∧ (mkPV er w d).cdf x = .fin F ∧ (mkPV er w d).pdf er = .fin p ∧
      |F - q| ≤ 1.48e-8 * p ∧ (1 / 2 ≤ q → er ≤ x ∧ F ≤ q) ∧ (q ≤ 1 / 2 → x ≤ er ∧ q ≤ F) := by
  have hok : PV.Ok w d := ⟨hw, hd, hne⟩
  obtain ⟨x, hx⟩ := hok.ppfScalar_central (er := er) hε (hok.gamma_le.trans hG) h0 h1
  rcases C33_scalar er w d hw hd hne q with h | h
  · exact h
  · rw [hx] at h
    simp at h

/-- The hypotheses hold for a level of width 1e-5 MeV at Doppler width 2e-5 MeV. -/
example : (0 : ℝ) ≤ 1e-5 ∧ (0 : ℝ) ≤ 2e-5 ∧ 2 * Real.sqrt (Real.log 2) * 2e-5 + 1e-5 ≤ 2.5e22 * (1e-6 : ℝ) ^ 4 ∧
    ∀ q ∈ [(1e-6 : ℝ), 0.025, 0.5, 0.999], 1e-6 ≤ q ∧ q ≤ 1 - 1e-6 := by
  have h : Real.sqrt (Real.log 2) ≤ 1 := Real.sqrt_le_one.2 (by have := Real.log_two_lt_d9; linarith)
  refine ⟨by norm_num, by norm_num, by norm_num; linarith, ?_⟩
  intro q hq
  fin_cases hq <;> norm_num

/-! ## C81 -/

/-- C81: for a coverage `c < 1` and widths that add up to at most 2.5e22 ((1 - c) / 2)⁴ MeV (250 MeV for a coverage of 99.998 %),
the interval is symmetric about the resonance energy and carries the fraction `c` of the
cross section, up to a deficit of at most 3.8e-8 MeV divided by the larger of the two widths. -/
theorem C81_coverage {r : Reso} {w d : ℝ} (h : IsPseudoVoigtOf r w d) (hI : 0 ≤ r.ics) {c : ℝ} (h0 : 0 ≤ c) (h1 : c < 1)
    (hG : 2 * Real.sqrt (Real.log 2) * d + w ≤ 2.5e22 * ((1 - c) / 2) ^ 4) :
    ∃ (ci : Reso.Cov) (σ : ℝ → ℝ) (lo hi : ℝ), r.coverageInterval c = .ok ci ∧ ci.lo = .fin lo ∧ ci.hi = .fin hi ∧
      r.HasSigma σ ∧ lo + hi = 2 * r.er ∧ lo ≤ hi ∧
      (c - 3.8e-8 / max w (2 * Real.sqrt (Real.log 2) * d)) * (∫ E, σ E) ≤ ∫ E in lo..hi, σ E ∧
      ∫ E in lo..hi, σ E ≤ c * ∫ E, σ E := by
  obtain ⟨hok, hd, hp⟩ := h.inv
  obtain ⟨ci, lo, hi, e1, e2, e3, e4, e5, hcase⟩ := pv_coverage hok (by rw [hd]) (by rw [hd]) hp h0 (by linarith)
  refine ⟨ci, _, lo, hi, e1, e2, e3, pv_sigma hok hd hp, e4, by linarith, ?_⟩
  rw [intervalIntegral.integral_const_mul, integral_const_mul, hok.good.integral, hok.good.intervalIntegral, mul_one]
  rcases hcase with ⟨q1, q2⟩ | ⟨hw, -⟩
  · have b1 := q1.2.2 (by linarith)
    have b2 := q2.2.1 (by linarith)
    have a1 := abs_le.1 q1.1
    have a2 := abs_le.1 q2.1
    have el := hok.error_le (er := r.er)
    constructor
    · rw [mul_comm]
      refine mul_le_mul_of_nonneg_left ?_ hI
      have : (3.8e-8 : ℝ) / max w (2 * Real.sqrt (Real.log 2) * d) = 2 * (1.9e-8 / max w (2 * Real.sqrt (Real.log 2) * d)) := by
        rw [mul_div_assoc']; norm_num
      rw [this]
      linarith
    · rw [mul_comm c]
      refine mul_le_mul_of_nonneg_left ?_ hI
      linarith
  · obtain ⟨xs, hx⟩ := hok.ppfArray_central (er := r.er) (ε := (1 - c) / 2) (by linarith) (hok.gamma_le.trans hG)
      (qs := [(1 - c) / 2, (1 + c) / 2]) (by simp) (by
      intro q hq
      simp only [List.mem_cons, List.not_mem_nil, or_false] at hq
      rcases hq with rfl | rfl <;> constructor <;> linarith)
    rw [hx] at hw
    cases hw

/-- C81 for every coverage below 1: the interval is symmetric about the resonance energy. Either it carries at most the
fraction `c`, with the same bound on the deficit; or the fallback warning was issued, then its ends are the mixture of
the ends of the exact coverage intervals of the normal and the Cauchy component. -/
theorem C81_any_coverage {r : Reso} {w d : ℝ} (h : IsPseudoVoigtOf r w d) (hI : 0 ≤ r.ics) {c : ℝ} (h0 : 0 ≤ c) (h1 : c < 1) :
    ∃ (ci : Reso.Cov) (σ : ℝ → ℝ) (lo hi : ℝ), r.coverageInterval c = .ok ci ∧ ci.lo = .fin lo ∧ ci.hi = .fin hi ∧
      r.HasSigma σ ∧ lo + hi = 2 * r.er ∧ lo ≤ hi ∧
      ((c - 3.8e-8 / max w (2 * Real.sqrt (Real.log 2) * d)) * (∫ E, σ E) ≤ ∫ E in lo..hi, σ E ∧
          ∫ E in lo..hi, σ E ≤ c * ∫ E, σ E ∨
        ((mkPV r.er w d).ppfArray [(1 - c) / 2, (1 + c) / 2]).warned = true ∧
        ∃ a b, lo = (1 - (mkPV r.er w d).eta) * a + (mkPV r.er w d).eta * b ∧
          normCdf r.er (mkPV r.er w d).normScale a = (1 - c) / 2 ∧
          cauchyCdf r.er (mkPV r.er w d).cauchyScale b = (1 - c) / 2) := by
  obtain ⟨hok, hd, hp⟩ := h.inv
  obtain ⟨ci, lo, hi, e1, e2, e3, e4, e5, hcase⟩ := pv_coverage hok (by rw [hd]) (by rw [hd]) hp h0 h1
  refine ⟨ci, _, lo, hi, e1, e2, e3, pv_sigma hok hd hp, e4, by linarith, ?_⟩
  rcases hcase with ⟨q1, q2⟩ | hf
  · left
    rw [intervalIntegral.integral_const_mul, integral_const_mul, hok.good.integral, hok.good.intervalIntegral, mul_one]
    have b1 := q1.2.2 (by linarith)
    have b2 := q2.2.1 (by linarith)
    have a1 := abs_le.1 q1.1
    have a2 := abs_le.1 q2.1
    have el := hok.error_le (er := r.er)
    constructor
    · rw [mul_comm]
      refine mul_le_mul_of_nonneg_left ?_ hI
      have : (3.8e-8 : ℝ) / max w (2 * Real.sqrt (Real.log 2) * d) = 2 * (1.9e-8 / max w (2 * Real.sqrt (Real.log 2) * d)) := by
        rw [mul_div_assoc']; norm_num
      rw [this]
      linarith
    · rw [mul_comm c]
      refine mul_le_mul_of_nonneg_left ?_ hI
      linarith
  · exact Or.inr hf

/-! ## C82 -/

/-- C82: for a coverage `c < 1`, widths as in C81, and `n ≥ 2`, the equal-probability grid of a pseudo-Voigt resonance exists, has `n`
sorted points, and each of its intervals carries the share `c / (n - 1)` of the cross section, up to 3.8e-8 MeV divided by the larger
of the two widths. -/
theorem C82_coverage_grid {r : Reso} {w d : ℝ} (h : IsPseudoVoigtOf r w d) (hI : 0 ≤ r.ics) {c : ℝ} (h0 : 0 ≤ c) (h1 : c < 1)
    (hG : 2 * Real.sqrt (Real.log 2) * d + w ≤ 2.5e22 * ((1 - c) / 2) ^ 4) (n : ℤ) (hn : 2 ≤ n) :
    ∃ (σ : ℝ → ℝ) (g : List ℝ), r.HasSigma σ ∧ r.probGrid (.cov c) n = .ok (some (g.map .fin)) ∧ (g.length : ℤ) = n ∧
      g.Pairwise (· ≤ ·) ∧
      NearShares σ g (c / (n - 1) * ∫ E, σ E) (3.8e-8 / max w (2 * Real.sqrt (Real.log 2) * d) * ∫ E, σ E) := by
  obtain ⟨hok, hd, hp⟩ := h.inv
  obtain ⟨m, rfl⟩ : ∃ m : ℕ, n = (m : ℤ) + 2 := ⟨(n - 2).toNat, by omega⟩
  obtain ⟨xs, hx, hat, hsort⟩ := hok.grid_central (er := r.er) (ε := (1 - c) / 2) (by linarith) (hok.gamma_le.trans hG)
    (a := 0.5 * (1 - c)) (b := 0.5 * (1 + c)) (by linarith) (by linarith) (by linarith) m
  refine ⟨_, xs, pv_sigma hok hd hp, ?_, ?_, hsort, ?_⟩
  · unfold Reso.probGrid
    simp only [Bind.bind, Except.bind, linspace_nat]
    rw [hd, hp, pv_ppf_linspace, hx]
  · have := hat.length_eq
    simp [gridQ] at this
    omega
  · rw [integral_const_mul, hok.good.integral, mul_one]
    have := hok.shares (er := r.er) (I := r.ics) hI hat
    have e : (0.5 * (1 + c) - 0.5 * (1 - c)) / (m + 1) * r.ics = c / (((m : ℤ) + 2 : ℤ) - 1 : ℝ) * r.ics := by
      push_cast
      congr 1
      congr 1 <;> ring
    rwa [e] at this

/-- C82 with explicit limits around the resonance energy, a fraction of at least `ε` being outside on either side: the grid exists, has `n` points, starts and ends
exactly at the limits, is sorted and inside the limits, and each interval carries the same share, up to the same error. -/
theorem C82_limits_grid {r : Reso} {w d : ℝ} (h : IsPseudoVoigtOf r w d) {ε : ℝ} (hε : 0 < ε)
    (hG : 2 * Real.sqrt (Real.log 2) * d + w ≤ 2.5e22 * ε ^ 4) (hI : 0 < r.ics) {σ : ℝ → ℝ} (hσ : r.HasSigma σ) {a b : ℝ} (ha : a ≤ r.er) (hb : r.er ≤ b)
    (hqa : ε * ∫ E, σ E ≤ ∫ E in Iic a, σ E) (hqb : ε * ∫ E, σ E ≤ ∫ E in Ioi b, σ E) (n : ℤ) (hn : 2 ≤ n) :
    ∃ g : List ℝ, r.probGrid (.lims a b) n = .ok (some (g.map .fin)) ∧ (g.length : ℤ) = n ∧
      g.head? = some a ∧ g.getLast? = some b ∧ OrderedInside a b g ∧
      NearShares σ g ((∫ E in a..b, σ E) / (n - 1)) (3.8e-8 / max w (2 * Real.sqrt (Real.log 2) * d) * ∫ E, σ E) := by
  obtain ⟨hok, hd, hp⟩ := h.inv
  obtain rfl := sigma_unique hσ (pv_sigma hok hd hp)
  obtain ⟨m, rfl⟩ : ∃ m : ℕ, n = (m : ℤ) + 2 := ⟨(n - 2).toNat, by omega⟩
  rw [integral_const_mul, integral_const_mul, hok.good.integral, hok.good.integral_Iic] at hqa
  rw [integral_const_mul, integral_const_mul, hok.good.integral, hok.good.integral_Ioi] at hqb
  have qa : ε ≤ (mkPV r.er w d).cdfR a := by
    by_contra hc; push Not at hc
    have := mul_lt_mul_of_pos_left hc hI
    linarith
  have qb : (mkPV r.er w d).cdfR b ≤ 1 - ε := by
    by_contra hc; push Not at hc
    have := mul_lt_mul_of_pos_left hc hI
    linarith
  have hab : a ≤ b := ha.trans hb
  obtain ⟨xs, hx, hat, hsort⟩ := hok.grid_central (er := r.er) hε (hok.gamma_le.trans hG) qa qb
    (hok.good.strictMono.monotone hab) m
  have hlen : xs.length = m + 2 := by have := hat.length_eq; simp [gridQ] at this; omega
  obtain ⟨g, hg, hglen, hh, hl, hgat, hgs⟩ := hok.setEnds_grid ha hb hlen hat hsort
  refine ⟨g, ?_, by omega, hh, hl, hgs, ?_⟩
  · unfold Reso.probGrid
    simp only [Bind.bind, Except.bind]
    have : r.dist.cdf r.params [a, b] = .ok [.fin ((mkPV r.er w d).cdfR a), .fin ((mkPV r.er w d).cdfR b)] := by
      rw [hd, hp]; simp [PV.toDist, PV.cdf, hok.valid]
    simp only [this, linspace_nat]
    rw [hd, hp, pv_ppf_linspace, hx]
    simp only [hg, Except.map]
  · rw [integral_const_mul, hok.good.integral, mul_one, intervalIntegral.integral_const_mul, hok.good.intervalIntegral]
    have := hok.shares (er := r.er) (I := r.ics) hI.le hgat
    have e : ((mkPV r.er w d).cdfR b - (mkPV r.er w d).cdfR a) / (m + 1) * r.ics
        = r.ics * ((mkPV r.er w d).cdfR b - (mkPV r.er w d).cdfR a) / (((m : ℤ) + 2 : ℤ) - 1 : ℝ) := by
      push_cast
      have : (m : ℝ) + 2 - 1 = m + 1 := by ring
      rw [this]; ring
    rwa [e] at this

/-- a level of width 1e-5 MeV -/
noncomputable def exMid : Level := state "1/2^-_1" 1 (-1) 2 [("3/2^-_1", 1e-5)]

theorem exMid_width : exMid.width = .ok 1e-5 := by
  simp [Level.width, Level.partialWidths, exMid, state, lookup, pyNumSum, Bind.bind, Except.bind, pure, Except.pure]

theorem exMid_resonance : ∃ r, mkResonance exConst exGround exMid none noRecoil = .ok r ∧ r.er = 2 ∧ 0 < r.ics := by
  have := Real.pi_pos
  simp [mkResonance, statFactor, fdiv, branchingRatio, integratedCS, exGround, exMid, exConst, groundState, state,
    Level.partialWidths, lookup, Bind.bind, Except.bind, noRecoil]
  rw [if_neg (by norm_num)]
  refine ⟨_, rfl, rfl, ?_⟩
  simp only
  positivity

/-- The hypotheses of C81 and C82 are met, with limits that are not trivial. -/
example : ∃ r, IsPseudoVoigtOf r 1e-5 0 ∧ 2 * Real.sqrt (Real.log 2) * 0 + 1e-5 ≤ 2.5e22 * ((1 - 0.9999) / 2) ^ 4 ∧
    2 * Real.sqrt (Real.log 2) * 0 + 1e-5 ≤ 2.5e22 * (1e-6 : ℝ) ^ 4 ∧ 0 < r.ics ∧
    ∃ σ a b, r.HasSigma σ ∧ a < r.er ∧ r.er < b ∧ 1e-6 * ∫ E, σ E ≤ ∫ E in Iic a, σ E ∧ 1e-6 * ∫ E, σ E ≤ ∫ E in Ioi b, σ E := by
  obtain ⟨r, hr, he, hI⟩ := exMid_resonance
  have hP : IsPseudoVoigtOf { r with dist := (mkPV r.er 1e-5 0).toDist, params := [] } 1e-5 0 := by
    refine ⟨exConst, exGround, exMid, 11, 0, none, ?_, by norm_num, le_rfl,
      by norm_num [exGround, exMid, groundState, state], exMid_width, ?_, by norm_num, Or.inl (by norm_num)⟩
    · simp [mkPseudoVoigt, hr, exMid_width, getDopplerWidth_ok exConst (show (11 : ℝ) ≠ 0 by norm_num), Bind.bind, Except.bind,
        dopplerWidth]
    · rw [getDopplerWidth_ok exConst (show (11 : ℝ) ≠ 0 by norm_num)]
      simp [dopplerWidth]
  obtain ⟨hok, hd, hp⟩ := hP.inv
  obtain ⟨a, ha⟩ := (hok.good (er := r.er)).surj (q := 1e-5) (by norm_num) (by norm_num)
  obtain ⟨b, hb⟩ := (hok.good (er := r.er)).surj (q := 0.99999) (by norm_num) (by norm_num)
  have hhalf := hok.half (er := r.er)
  refine ⟨_, hP, by norm_num, by norm_num, hI, _, a, b, pv_sigma hok hd hp, ?_, ?_, ?_, ?_⟩
  · exact (hok.good (er := r.er)).strictMono.lt_iff_lt.1 (by rw [ha, hhalf]; norm_num)
  · exact (hok.good (er := r.er)).strictMono.lt_iff_lt.1 (by rw [hb, hhalf]; norm_num)
  · simp only
    rw [integral_const_mul, integral_const_mul, hok.good.integral, hok.good.integral_Iic, ha]
    linarith
  · simp only
    rw [integral_const_mul, integral_const_mul, hok.good.integral, hok.good.integral_Ioi, hb]
    linarith

/-! ## C83 -/

/-- C83 is false of the code: the coverage interval of a Voigt resonance at zero temperature is symmetric but carries at
most the fraction (2/π) arctan(tan(π c / 2) / 2), which is smaller than `c`, for every coverage. -/
theorem C83_refuted {k : PhysConst} {init inter : Level} {final : Option Level} {amu w : ℝ} {r : Reso}
    (hr : mkVoigt k init inter amu 0 final = .ok r) (ha : 0 < amu) (hE : init.exc < inter.exc) (hw : inter.width = .ok w) (hpos : 0 < w)
    (hI : 0 < r.ics) {c : ℝ} (h0 : 0 < c) (h1 : c < 1) :
    ∃ (ci : Reso.Cov) (σ : ℝ → ℝ) (lo hi : ℝ), r.coverageInterval c = .ok ci ∧ ci.lo = .fin lo ∧ ci.hi = .fin hi ∧
      r.HasSigma σ ∧ lo + hi = 2 * r.er ∧
      ∫ E in lo..hi, σ E ≤ 2 / Real.pi * Real.arctan (Real.tan (Real.pi * c / 2) / 2) * ∫ E, σ E ∧
      2 / Real.pi * Real.arctan (Real.tan (Real.pi * c / 2) / 2) < c := by
  have hdw : getDopplerWidth k amu 0 r.er = .ok 0 := by
    rw [getDopplerWidth_ok k ha.ne']; simp [dopplerWidth]
  have hV : IsVoigtOf r w 0 := ⟨k, init, inter, amu, 0, final, hr, ha, le_rfl, hE, hw, hdw, hpos.le, Or.inl hpos⟩
  obtain ⟨hok, hd, hp⟩ := hV.inv
  have hpi := Real.pi_pos
  obtain ⟨ci, lo, hi, e1, e2, e3, e4, e5, hcase⟩ := pv_coverage hok (by rw [hd]; rfl) (by rw [hd]; rfl) hp h0.le h1
  obtain ⟨eη, ek⟩ := mkPV_doppler_zero r.er hpos
  have hF : (mkPV r.er w 0).cdfR = cauchyCdf r.er (w / 4) := by
    funext x; simp [PV.cdfR, eη, ek]; rfl
  have hgood := cauchy_good r.er (by linarith : 0 < w / 4)
  have hpk := cauchy_peaked r.er (by linarith : 0 < w / 4)
  have hg2 := cauchy_good r.er (by linarith : 0 < 0.5 * w)
  have hp2 := cauchy_peaked r.er (by linarith : 0 < 0.5 * w)
  have hσ : r.HasSigma fun E => r.ics * cauchyPdf r.er (0.5 * w) E := by
    intro E
    rw [voigt_call hr ha.ne' hw E]
    have hz : dopplerWidth k amu 0 r.er = 0 := by simp [dopplerWidth]
    simp only [hz, zero_div, voigtProfile, if_true]
    rw [if_neg (by linarith), cauchyPdf_shift]
    rfl
  have hlo : (1 - c) / 2 ≤ cauchyCdf r.er (w / 4) lo := by
    rcases hcase with ⟨q1, -⟩ | ⟨-, a, b, rfl, -, hb⟩
    · rw [← hF]; exact (q1.2.2 (by linarith)).2
    · rw [eη, ← ek]
      rw [← hb]
      have : (1 - 1) * a + 1 * b = b := by ring
      rw [this]
  -- position of the lower end
  have hθ : Real.arctan (Real.tan (Real.pi * c / 2)) = Real.pi * c / 2 :=
    Real.arctan_tan (by nlinarith) (by nlinarith)
  have htpos : 0 < Real.tan (Real.pi * c / 2) := Real.tan_pos_of_pos_of_lt_pi_div_two (by positivity) (by nlinarith)
  set t := Real.tan (Real.pi * c / 2) with ht
  have hlo' : -t ≤ (lo - r.er) / (w / 4) := by
    by_contra hc
    push Not at hc
    have := Real.arctan_strictMono hc
    rw [Real.arctan_neg, hθ] at this
    unfold cauchyCdf at hlo
    have h2 : 1 / Real.pi * Real.arctan ((lo - r.er) / (w / 4)) < 1 / Real.pi * (-(Real.pi * c / 2)) :=
      mul_lt_mul_of_pos_left this (by positivity)
    have e : 1 / Real.pi * (-(Real.pi * c / 2)) = -(c / 2) := by field_simp
    linarith
  have hlo2 : -(t / 2) ≤ (lo - r.er) / (0.5 * w) := by
    have e : (lo - r.er) / (0.5 * w) = (lo - r.er) / (w / 4) / 2 := by field_simp; ring
    rw [e]; linarith
  refine ⟨ci, _, lo, hi, e1, e2, e3, hσ, e4, ?_, ?_⟩
  · rw [intervalIntegral.integral_const_mul, integral_const_mul, hg2.integral, hg2.intervalIntegral, mul_one, mul_comm _ r.ics]
    refine mul_le_mul_of_nonneg_left ?_ hI.le
    have ehi : hi = 2 * r.er - lo := by linarith
    rw [ehi, hg2.reflect hp2]
    have := Real.arctan_strictMono.monotone hlo2
    rw [Real.arctan_neg] at this
    have h2 : 1 / Real.pi * (-Real.arctan (t / 2)) ≤ 1 / Real.pi * Real.arctan ((lo - r.er) / (0.5 * w)) :=
      mul_le_mul_of_nonneg_left this (by positivity)
    simp only [cauchyCdf]
    have e : 2 / Real.pi * Real.arctan (t / 2) = -2 * (1 / Real.pi * (-Real.arctan (t / 2))) := by ring
    rw [e]
    linarith
  · have : Real.arctan (t / 2) < Real.pi * c / 2 := by
      rw [← hθ]
      exact Real.arctan_strictMono (by linarith)
    calc _ < 2 / Real.pi * (Real.pi * c / 2) := mul_lt_mul_of_pos_left this (by positivity)
      _ = c := by field_simp

/-- C83, how large the deficit can be: the interval for a coverage of 50 % carries less than a third. -/
theorem C83_half : 2 / Real.pi * Real.arctan (Real.tan (Real.pi * (1 / 2) / 2) / 2) < 1 / 3 := by
  have e : Real.pi * (1 / 2) / 2 = Real.pi / 4 := by ring
  rw [e, Real.tan_pi_div_four]
  have hpi := Real.pi_pos
  have h : Real.arctan (1 / 2) < Real.pi / 6 := by
    rw [← Real.arctan_inv_sqrt_three]
    refine Real.arctan_strictMono ?_
    rw [one_div, inv_lt_inv₀ (by norm_num) (by positivity), Real.sqrt_lt' (by norm_num)]
    norm_num
  rw [div_mul_eq_mul_div, div_lt_iff₀ hpi]
  linarith

/-- The hypotheses are met. -/
example : ∃ r, mkVoigt exConst exGround exMid 11 0 none = .ok r ∧ exMid.width = .ok 1e-5 ∧ exGround.exc < exMid.exc ∧ 0 < r.ics := by
  obtain ⟨r, hr, he, hI⟩ := exMid_resonance
  refine ⟨{ r with dist := (mkPV r.er 1e-5 0).toSemiDist, params := [] }, ?_, exMid_width,
    by norm_num [exGround, exMid, groundState, state], hI⟩
  simp [mkVoigt, mkPseudoVoigt, hr, exMid_width, getDopplerWidth_ok exConst (show (11 : ℝ) ≠ 0 by norm_num), Bind.bind, Except.bind,
    dopplerWidth]

/-- C83, the part that holds: a Voigt resonance of zero width (pure Doppler broadening). The width is the sum of the partial widths, so with
partial widths that are not negative there is no cross section at all; `C83_narrow_partial` is the statement about narrow resonances. Missing: positive
widths, for which the quantiles belong to another shape than the cross section (false at zero temperature, see `C83_refuted`). -/
theorem C83_partial {r : Reso} {d : ℝ} (h : IsVoigtOf r 0 d) (hI : 0 ≤ r.ics) {c : ℝ} (h0 : 0 ≤ c) (h1 : c < 1)
    (hG : 2 * Real.sqrt (Real.log 2) * d ≤ 2.5e22 * ((1 - c) / 2) ^ 4) :
    ∃ (ci : Reso.Cov) (σ : ℝ → ℝ) (lo hi : ℝ), r.coverageInterval c = .ok ci ∧ ci.lo = .fin lo ∧ ci.hi = .fin hi ∧
      r.HasSigma σ ∧ lo + hi = 2 * r.er ∧ lo ≤ hi ∧
      (c - 3.8e-8 / (2 * Real.sqrt (Real.log 2) * d)) * (∫ E, σ E) ≤ ∫ E in lo..hi, σ E ∧
      ∫ E in lo..hi, σ E ≤ c * ∫ E, σ E := by
  obtain ⟨hok, hd, hp⟩ := h.inv
  have hdpos : 0 < d := hok.ne.resolve_left (lt_irrefl _)
  obtain ⟨eη, ek⟩ := mkPV_width_zero r.er hdpos
  obtain ⟨ci, lo, hi, e1, e2, e3, e4, e5, hcase⟩ := pv_coverage hok (by rw [hd]; rfl) (by rw [hd]; rfl) hp h0 (by linarith)
  have hs : 0 < d / Real.sqrt 2 := by positivity
  have hF : (mkPV r.er 0 d).cdfR = normCdf r.er (d / Real.sqrt 2) := by
    funext x; simp [PV.cdfR, eη, ek]; rfl
  have hgood := norm_good r.er hs
  have hσ : r.HasSigma fun E => r.ics * normPdf r.er (d / Real.sqrt 2) E := by
    intro E
    have : r.dist.pdf r.params E = .ok (.fin (normPdf r.er (d / Real.sqrt 2) E)) := by
      rw [hd, hp]
      simp only [PV.toSemiDist, if_true]
      have e1 : (mkPV r.er 0 d).sigma = d / Real.sqrt 2 := rfl
      have e2 : (mkPV r.er 0 d).gamma = 0.5 * 0 := rfl
      have e3 : (mkPV r.er 0 d).er = r.er := rfl
      rw [e1, e2, e3, voigtProfile, if_neg hs.ne', if_pos (by norm_num), normPdf_shift]
    simp [Reso.call, this, Bind.bind, Except.bind, Fl.smul]
  refine ⟨ci, _, lo, hi, e1, e2, e3, hσ, e4, by linarith, ?_⟩
  rw [intervalIntegral.integral_const_mul, integral_const_mul, hgood.integral, hgood.intervalIntegral, mul_one, ← hF]
  have hmax : max 0 (2 * Real.sqrt (Real.log 2) * d) = 2 * Real.sqrt (Real.log 2) * d := max_eq_right hok.g0
  rcases hcase with ⟨q1, q2⟩ | ⟨hw, -⟩
  · have b1 := q1.2.2 (by linarith)
    have b2 := q2.2.1 (by linarith)
    have a1 := abs_le.1 q1.1
    have a2 := abs_le.1 q2.1
    have el := hok.error_le (er := r.er)
    rw [hmax] at el
    constructor
    · rw [mul_comm]
      refine mul_le_mul_of_nonneg_left ?_ hI
      have : (3.8e-8 : ℝ) / (2 * Real.sqrt (Real.log 2) * d) = 2 * (1.9e-8 / (2 * Real.sqrt (Real.log 2) * d)) := by
        rw [mul_div_assoc']; norm_num
      rw [this]
      linarith
    · rw [mul_comm c]
      refine mul_le_mul_of_nonneg_left ?_ hI
      linarith
  · obtain ⟨xs, hx⟩ := hok.ppfArray_central (er := r.er) (ε := (1 - c) / 2) (by linarith)
      (hok.gamma_le.trans (by rw [add_zero]; exact hG))
      (qs := [(1 - c) / 2, (1 + c) / 2]) (by simp) (by
      intro q hq
      simp only [List.mem_cons, List.not_mem_nil, or_false] at hq
      rcases hq with rfl | rfl <;> constructor <;> linarith)
    rw [hx] at hw
    cases hw

/-- a level with partial widths of opposite sign, which the code does not reject -/
noncomputable def exZero : Level := state "1/2^-_1" 1 (-1) 2 [("3/2^-_1", 1e-5), ("5/2^-_1", -1e-5)]

/-- The hypotheses are met, by a cross section that does not vanish. -/
example : ∃ (r : Reso) (d : ℝ), IsVoigtOf r 0 d ∧ 0 < r.ics ∧ 0 < d ∧ 2 * Real.sqrt (Real.log 2) * d ≤ 2.5e22 * ((1 - 0.9) / 2) ^ 4 := by
  have hw : exZero.width = .ok 0 := by
    simp [Level.width, Level.partialWidths, exZero, state, lookup, pyNumSum, Bind.bind, Except.bind, pure, Except.pure]
  obtain ⟨r, hr, he, hI⟩ : ∃ r, mkResonance exConst exGround exZero none noRecoil = .ok r ∧ r.er = 2 ∧ 0 < r.ics := by
    have hpi := Real.pi_pos
    simp [mkResonance, statFactor, fdiv, branchingRatio, integratedCS, exGround, exZero, exConst, groundState, state,
      Level.partialWidths, lookup, Bind.bind, Except.bind, noRecoil]
    rw [if_neg (by norm_num)]
    refine ⟨_, rfl, rfl, ?_⟩
    simp only
    positivity
  have hd : getDopplerWidth exConst 11 293 r.er = .ok (dopplerWidth exConst 11 293 r.er) := getDopplerWidth_ok exConst (by norm_num) 293 r.er
  have hpos : 0 < dopplerWidth exConst 11 293 r.er := by
    have h1 := exConst.u_pos
    have h2 := exConst.kB_pos
    rw [dopplerWidth, he]
    positivity
  refine ⟨{ r with dist := (mkPV r.er 0 (dopplerWidth exConst 11 293 r.er)).toSemiDist, params := [] }, _,
    ⟨exConst, exGround, exZero, 11, 293, none, ?_, by norm_num, by norm_num, by norm_num [exGround, exZero, groundState, state], hw, hd, le_rfl,
      Or.inr (by norm_num)⟩, hI, hpos, ?_⟩
  · simp [mkVoigt, mkPseudoVoigt, hr, hw, hd, Bind.bind, Except.bind]
  · have h1 : Real.sqrt (Real.log 2) ≤ 1 := by
      rw [Real.sqrt_le_one]
      linarith [Real.log_two_lt_d9]
    have h2 : dopplerWidth exConst 11 293 r.er ≤ 2 := by
      rw [dopplerWidth, he]
      have : Real.sqrt (2 * exConst.kB * 1e-6 * 293 / (11 * exConst.u)) ≤ 1 := by
        rw [Real.sqrt_le_one]
        norm_num [exConst]
      linarith
    have h3 := Real.sqrt_nonneg (Real.log 2)
    nlinarith

end Ries
