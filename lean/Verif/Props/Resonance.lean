import Verif.Lemmas.Resonance
import Verif.Spec.Examples
import Mathlib.Analysis.SpecialFunctions.Integrals.Basic

/-! # Properties C11, C12, C16 - C20: coverage and integrals of resonances -/

open MeasureTheory Set

namespace Ries

theorem analytic_of {r : Reso} (h : IsBreitWigner r ∨ IsGauss r) : ∃ F p Q, Analytic r F p Q :=
  h.elim (·.analytic) (·.analytic)

theorem exIsBreitWigner : ∃ r, IsBreitWigner r := by
  obtain ⟨r, h, -⟩ := exBreitWigner
  exact ⟨r, _, _, _, _, 4, h, exExcited_width, by norm_num⟩

theorem exIsGauss : ∃ r, IsGauss r := by
  obtain ⟨r, h, -⟩ := exGauss
  exact ⟨r, _, _, _, 11, 293, _, h, by norm_num, by norm_num, by norm_num [exGround, exExcited, groundState, state]⟩

/-! ## C11 -/

/-- C11: the equal-probability grid over the limits `a < b` with `n ≥ 2` points. -/
theorem C11_limits_grid {r : Reso} (h : IsBreitWigner r ∨ IsGauss r) {a b : ℝ} (hab : a < b) (n : ℤ) (hn : 2 ≤ n) :
    ∃ (g : List ℝ) (σ : ℝ → ℝ), r.probGrid (.lims a b) n = .ok (some (g.map .fin)) ∧ r.HasSigma σ ∧
      (g.length : ℤ) = n ∧ g.head? = some a ∧ g.getLast? = some b ∧ g.Pairwise (· < ·) ∧
      EqualShares σ g ((∫ E in a..b, σ E) / (n - 1)) := by
  obtain ⟨F, p, Q, hA⟩ := analytic_of h
  obtain ⟨m, rfl⟩ : ∃ m : ℕ, n = (m : ℤ) + 2 := ⟨(n - 2).toNat, by omega⟩
  have hF := hA.good.strictMono hab
  refine ⟨qgrid Q (F a) (F b) m, _, ?_, hA.sigma, ?_, ?_, ?_, ?_, ?_⟩
  · unfold Reso.probGrid
    simp only [hA.cdf, List.map_cons, List.map_nil, bind, Except.bind, linspace_nat,
      hA.ppf_linspace (hA.good.gt_zero a) (hA.good.lt_one b) hF.le]
    rw [setEnds_of_ends]
    · rfl
    · simp [qgrid_length]
    · simp [List.head?_map, qgrid_head, hA.Q_F]
    · simp [List.getLast?_map, qgrid_last, hA.Q_F]
  · rw [qgrid_length]; push_cast; ring
  · rw [qgrid_head, hA.Q_F]
  · rw [qgrid_last, hA.Q_F]
  · exact hA.qgrid_pairwise (hA.good.gt_zero a) (hA.good.lt_one b) hF m
  · have := hA.qgrid_shares (hA.good.gt_zero a) (hA.good.lt_one b) hF.le m
    rw [hA.integral_sigma]
    convert this using 1
    push_cast
    rw [mul_div_assoc]
    congr 2
    ring

example : ∃ r, (IsBreitWigner r ∨ IsGauss r) ∧ (1 : ℝ) < 3 ∧ (2 : ℤ) ≤ 10 := by
  obtain ⟨r, h⟩ := exIsBreitWigner
  exact ⟨r, Or.inl h, by norm_num, by norm_num⟩

/-! ## C12 -/

/-- C12: the equal-probability grid for a coverage `c` in (0,1). The fractions are fractions of the integral of
the cross section over all energies, with equal tails. -/
theorem C12_coverage_grid {r : Reso} (h : IsBreitWigner r ∨ IsGauss r) {c : ℝ} (h0 : 0 < c) (h1 : c < 1) (n : ℤ)
    (hn : 2 ≤ n) :
    ∃ (g : List ℝ) (σ : ℝ → ℝ) (lo hi : ℝ), r.probGrid (.cov c) n = .ok (some (g.map .fin)) ∧ r.HasSigma σ ∧
      (g.length : ℤ) = n ∧ g.head? = some lo ∧ g.getLast? = some hi ∧ g.Pairwise (· < ·) ∧
      (∫ E in lo..hi, σ E) = c * ∫ E, σ E ∧
      (∫ E in Iic lo, σ E) = (1 - c) / 2 * ∫ E, σ E ∧
      (∫ E in Ioi hi, σ E) = (1 - c) / 2 * ∫ E, σ E ∧
      EqualShares σ g (c / (n - 1) * ∫ E, σ E) := by
  obtain ⟨F, p, Q, hA⟩ := analytic_of h
  obtain ⟨m, rfl⟩ : ∃ m : ℕ, n = (m : ℤ) + 2 := ⟨(n - 2).toNat, by omega⟩
  have ha : 0 < 0.5 * (1 - c) := by linarith
  have hb : 0.5 * (1 + c) < 1 := by linarith
  have hab : 0.5 * (1 - c) < 0.5 * (1 + c) := by linarith
  have hQa := hA.inv _ ha (hab.trans hb)
  have hQb := hA.inv _ (ha.trans hab) hb
  refine ⟨qgrid Q (0.5 * (1 - c)) (0.5 * (1 + c)) m, fun E => r.ics * p E, _, _, ?_, hA.sigma, ?_, qgrid_head _ _ _ _,
    qgrid_last _ _ _ _, hA.qgrid_pairwise ha hb hab m, ?_, ?_, ?_, ?_⟩
  · simp only [Reso.probGrid, bind, Except.bind, linspace_nat, hA.ppf_linspace ha hb hab.le]
  · rw [qgrid_length]; push_cast; ring
  · rw [hA.integral_sigma, hQa, hQb, integral_const_mul, hA.good.integral]; ring
  · rw [integral_const_mul, integral_const_mul, hA.good.integral, hA.good.integral_Iic, hQa]; ring
  · rw [integral_const_mul, integral_const_mul, hA.good.integral, hA.good.integral_Ioi, hQb]; ring
  · have := hA.qgrid_shares ha hb hab.le m
    rw [integral_const_mul, hA.good.integral]
    convert this using 1
    push_cast
    ring

example : ∃ r, (IsBreitWigner r ∨ IsGauss r) ∧ (0 : ℝ) < 0.9 ∧ (0.9 : ℝ) < 1 := by
  obtain ⟨r, h⟩ := exIsGauss
  exact ⟨r, Or.inr h, by norm_num, by norm_num⟩

/-! ## C16 -/

/-- the coverage interval of an analytic shape, with the warning left open -/
theorem Analytic.coverage {r : Reso} {F p Q : ℝ → ℝ} (hA : Analytic r F p Q) {c : ℝ} (h0 : 0 ≤ c) (h1 : c < 1)
    {v : ℝ} (hv : r.dist.cdf [] [0] = .ok [.fin v]) :
    ∃ ci, r.coverageInterval c = .ok ci ∧ ci.lo = .fin (Q (0.5 * (1 - c))) ∧ ci.hi = .fin (Q (0.5 * (1 + c))) ∧
      ci.warnNegative = (open Classical in if Q (0.5 * (1 - c)) < 0 then some (.fin (100 * (1 - v))) else none) ∧
      ¬ ci.warnInfinite := by
  have hp := hA.ppf [0.5 * (1 - c), 0.5 * (1 + c)] (by
    intro q hq
    simp only [List.mem_cons, List.not_mem_nil, or_false] at hq
    rcases hq with rfl | rfl <;> constructor <;> linarith)
  simp only [List.map_cons, List.map_nil] at hp
  by_cases hneg : Q (0.5 * (1 - c)) < 0
  · refine ⟨⟨.fin (Q (0.5 * (1 - c))), .fin (Q (0.5 * (1 + c))), some (.fin (100 * (1 - v))), False⟩, ?_, rfl, rfl, ?_, ?_⟩
    · have : 100 * (-1 * v + 1) = 100 * (1 - v) := by ring
      simp [Reso.coverageInterval, hp, hv, bind, Except.bind, Fl.isNeg, hneg, Fl.smul, Fl.add, Fl.isInf]
      ring
    · simp [hneg]
    · simp
  · refine ⟨⟨.fin (Q (0.5 * (1 - c))), .fin (Q (0.5 * (1 + c))), none, False⟩, ?_, rfl, rfl, ?_, ?_⟩
    · simp [Reso.coverageInterval, hp, bind, Except.bind, Fl.isNeg, hneg, Fl.isInf]
    · simp [hneg]
    · simp

theorem cauchyCdf_std : cauchyCdf 0 1 0 = 1 / 2 := by simp [cauchyCdf]

theorem normCdf_std : normCdf 0 1 0 = 1 / 2 :=
  (norm_good 0 one_pos).half_of_symm 0 fun d => normPdf_symm 0 1 d

/-- what `cdf(0.0)` without parameters returns for the two shapes -/
theorem cdf_default {r : Reso} (h : IsBreitWigner r ∨ IsGauss r) : r.dist.cdf [] [0] = .ok [.fin (1 / 2)] := by
  rcases h with ⟨k, init, inter, final, w, hr, hw, hpos⟩ | ⟨k, init, inter, amu, T, final, hr, -⟩
  · obtain ⟨r0, w', h0, hw', rfl⟩ := mkBreitWigner_inv hr
    simp [cauchyDist, scipyDist, locScale, bind, Except.bind, cauchyCdf_std]
  · obtain ⟨r0, h0, -, rfl⟩ := mkGauss_inv hr
    simp [normDist, scipyDist, locScale, bind, Except.bind, normCdf_std]

/-- the densities of Breit-Wigner and Gauss resonances are symmetric about the resonance energy -/
theorem analytic_symm {r : Reso} (h : IsBreitWigner r ∨ IsGauss r) :
    ∃ F p Q, Analytic r F p Q ∧ ∀ d, p (r.er + d) = p (r.er - d) := by
  rcases h with ⟨k, init, inter, final, w, hr, hw, hpos⟩ | ⟨k, init, inter, amu, T, final, hr, ha, hT, hE⟩
  · obtain ⟨r0, w', h0, hw', rfl⟩ := mkBreitWigner_inv hr
    rw [hw] at hw'; cases hw'
    exact ⟨_, _, _, analytic_cauchy rfl rfl (by linarith), fun d => cauchyPdf_symm _ _ d⟩
  · obtain ⟨r0, h0, -, rfl⟩ := mkGauss_inv hr
    have her := (mkResonance_inv h0).1
    have hpos : 0 < r0.er := by rw [her]; unfold noRecoil; linarith
    have hs : 0 < dopplerWidth k amu T r0.er / Real.sqrt 2 :=
      div_pos (dopplerWidth_pos k ha hT hpos) (by positivity)
    exact ⟨_, _, _, analytic_norm rfl rfl hs, fun d => normPdf_symm _ _ d⟩

/-- C16: the interval carries the fraction `c` with equal tails, and is centred on the resonance energy. -/
theorem C16_coverage_interval {r : Reso} (h : IsBreitWigner r ∨ IsGauss r) {c : ℝ} (h0 : 0 ≤ c) (h1 : c < 1) :
    ∃ (ci : Reso.Cov) (σ : ℝ → ℝ) (lo hi : ℝ), r.coverageInterval c = .ok ci ∧ ci.lo = .fin lo ∧ ci.hi = .fin hi ∧
      r.HasSigma σ ∧ lo ≤ hi ∧ lo + hi = 2 * r.er ∧
      (∫ E in lo..hi, σ E) = c * ∫ E, σ E ∧
      (∫ E in Iic lo, σ E) = (1 - c) / 2 * ∫ E, σ E ∧
      (∫ E in Ioi hi, σ E) = (1 - c) / 2 * ∫ E, σ E := by
  obtain ⟨F, p, Q, hA, hsym⟩ := analytic_symm h
  obtain ⟨ci, hci, hlo, hhi, -⟩ := hA.coverage h0 h1 (cdf_default h)
  have hQa := hA.inv (0.5 * (1 - c)) (by linarith) (by linarith)
  have hQb := hA.inv (0.5 * (1 + c)) (by linarith) (by linarith)
  refine ⟨ci, _, _, _, hci, hlo, hhi, hA.sigma, ?_, ?_, ?_, ?_, ?_⟩
  · rw [← hA.good.strictMono.le_iff_le, hQa, hQb]; linarith
  · have e := hA.good.add_of_symm r.er hsym (Q (0.5 * (1 + c)) - r.er)
    rw [show r.er + (Q (0.5 * (1 + c)) - r.er) = Q (0.5 * (1 + c)) by ring, hQb] at e
    have : Q (0.5 * (1 - c)) = r.er - (Q (0.5 * (1 + c)) - r.er) := hA.good.strictMono.injective (by rw [hQa]; linarith)
    linarith
  · rw [hA.integral_sigma, hQa, hQb, integral_const_mul, hA.good.integral]; ring
  · rw [integral_const_mul, integral_const_mul, hA.good.integral, hA.good.integral_Iic, hQa]; ring
  · rw [integral_const_mul, integral_const_mul, hA.good.integral, hA.good.integral_Ioi, hQb]; ring

/-- C16: the interval grows strictly with the coverage, on both sides. -/
theorem C16_coverage_grows {r : Reso} (h : IsBreitWigner r ∨ IsGauss r) {c d : ℝ} (h0 : 0 ≤ c) (hcd : c < d)
    (h1 : d < 1) : ∃ (ci di : Reso.Cov), r.coverageInterval c = .ok ci ∧ r.coverageInterval d = .ok di ∧
      di.lo < ci.lo ∧ ci.lo ≤ ci.hi ∧ ci.hi < di.hi := by
  obtain ⟨F, p, Q, hA⟩ := analytic_of h
  obtain ⟨ci, hci, hlo, hhi, -⟩ := hA.coverage h0 (hcd.trans h1) (cdf_default h)
  obtain ⟨di, hdi, hlo', hhi', -⟩ := hA.coverage (h0.trans hcd.le) h1 (cdf_default h)
  refine ⟨ci, di, hci, hdi, ?_, ?_, ?_⟩
  · rw [hlo, hlo', Fl.fin_lt_fin]
    exact hA.Q_lt (by linarith) (by linarith) (by linarith)
  · rw [hlo, hhi, Fl.fin_le_fin, ← hA.good.strictMono.le_iff_le, hA.inv _ (by linarith) (by linarith),
      hA.inv _ (by linarith) (by linarith)]
    linarith
  · rw [hhi, hhi', Fl.fin_lt_fin]
    exact hA.Q_lt (by linarith) (by linarith) (by linarith)

/-- C16: coverage 0 gives the median twice, which is the resonance energy. -/
theorem C16_coverage_zero {r : Reso} (h : IsBreitWigner r ∨ IsGauss r) :
    ∃ ci, r.coverageInterval 0 = .ok ci ∧ ci.lo = .fin r.er ∧ ci.hi = .fin r.er := by
  obtain ⟨F, p, Q, hA, hmed⟩ : ∃ F p Q, Analytic r F p Q ∧ F r.er = 1 / 2 := by
    rcases h with ⟨k, init, inter, final, w, hr, hw, hpos⟩ | ⟨k, init, inter, amu, T, final, hr, ha, hT, hE⟩
    · obtain ⟨r0, w', h0, hw', rfl⟩ := mkBreitWigner_inv hr
      rw [hw] at hw'; cases hw'
      refine ⟨_, _, _, analytic_cauchy rfl rfl (by linarith), by simp [cauchyCdf]⟩
    · obtain ⟨r0, h0, -, rfl⟩ := mkGauss_inv hr
      have her := (mkResonance_inv h0).1
      have hpos : 0 < r0.er := by rw [her]; unfold noRecoil; linarith
      have hs : 0 < dopplerWidth k amu T r0.er / Real.sqrt 2 :=
        div_pos (dopplerWidth_pos k ha hT hpos) (by positivity)
      exact ⟨_, _, _, analytic_norm rfl rfl hs, (norm_good _ hs).half_of_symm _ fun d => normPdf_symm _ _ d⟩
  obtain ⟨ci, hci, hlo, hhi, -⟩ := hA.coverage le_rfl one_pos (cdf_default h)
  have hq := hA.Q_F r.er
  rw [hmed] at hq
  refine ⟨ci, hci, ?_, ?_⟩
  · rw [hlo, ← hq]; norm_num
  · rw [hhi, ← hq]; norm_num

/-- coverage 1 runs to infinity in both directions and warns about it -/
theorem C16_coverage_one {r : Reso} (h : IsBreitWigner r ∨ IsGauss r) :
    ∃ ci, r.coverageInterval 1 = .ok ci ∧ ci.lo = .ninf ∧ ci.hi = .pinf ∧ ci.warnInfinite := by
  have hv := cdf_default h
  have hp : r.dist.ppf r.params [.fin (0.5 * (1 - 1)), .fin (0.5 * (1 + 1))] = .ok (some [.ninf, .pinf]) := by
    rcases h with ⟨k, init, inter, final, w, hr, hw, hpos⟩ | ⟨k, init, inter, amu, T, final, hr, ha, hT, hE⟩
    · obtain ⟨r0, w', h0, hw', rfl⟩ := mkBreitWigner_inv hr
      rw [hw] at hw'; cases hw'
      have : (0.5 : ℝ) * (1 + 1) = 1 := by norm_num
      have hs : (0 : ℝ) < 0.5 * w := by linarith
      simp only [cauchyDist, scipyDist, locScale, bind, Except.bind, hs, ppfAt, this]
      norm_num
    · obtain ⟨r0, h0, -, rfl⟩ := mkGauss_inv hr
      have her := (mkResonance_inv h0).1
      have hpos : 0 < r0.er := by rw [her]; unfold noRecoil; linarith
      have hs : 0 < dopplerWidth k amu T r0.er / Real.sqrt 2 :=
        div_pos (dopplerWidth_pos k ha hT hpos) (by positivity)
      have : (0.5 : ℝ) * (1 + 1) = 1 := by norm_num
      simp only [normDist, scipyDist, locScale, bind, Except.bind, hs, ppfAt, this]
      norm_num
  refine ⟨⟨.ninf, .pinf, some (.fin 50), True⟩, ?_, rfl, rfl, trivial⟩
  · unfold Reso.coverageInterval
    rw [hp]
    simp [hv, bind, Except.bind, Fl.isNeg, Fl.smul, Fl.add, Fl.isInf]
    norm_num

example : ∃ r, (IsBreitWigner r ∨ IsGauss r) ∧ (0 : ℝ) ≤ 0.5 ∧ (0.5 : ℝ) < 0.9 ∧ (0.9 : ℝ) < 1 := by
  obtain ⟨r, h⟩ := exIsBreitWigner
  exact ⟨r, Or.inl h, by norm_num, by norm_num, by norm_num⟩

/-! ## C17 -/

/-- C17 is false of the code, for every Breit-Wigner or Gauss resonance: from some coverage below 1 on
the returned lower limit is negative. -/
theorem C17_refuted {r : Reso} (h : IsBreitWigner r ∨ IsGauss r) : ∃ c0 < 1, 0 ≤ c0 ∧ ∀ c, c0 < c → c < 1 →
    ∃ ci lo, r.coverageInterval c = .ok ci ∧ ci.lo = .fin lo ∧ lo < 0 := by
  obtain ⟨F, p, Q, hA⟩ := analytic_of h
  have hF0 := hA.good.gt_zero 0
  refine ⟨max 0 (1 - 2 * F 0), max_lt one_pos (by linarith), le_max_left _ _, fun c hc hc1 => ?_⟩
  have hc0 : 0 < c := (le_max_left _ _).trans_lt hc
  have hc2 : 1 - 2 * F 0 < c := (le_max_right _ _).trans_lt hc
  obtain ⟨ci, hci, hlo, -⟩ := hA.coverage hc0.le hc1 (cdf_default h)
  refine ⟨ci, _, hci, hlo, ?_⟩
  rw [← hA.good.strictMono.lt_iff_lt, hA.inv _ (by linarith) (by linarith)]
  linarith

/-- C17, the part that holds (for every distribution): a warning about a negative limit is issued
exactly when the returned lower limit is negative. Missing: the limit is not replaced by 0. -/
theorem C17_partial (r : Reso) (c : ℝ) (ci : Reso.Cov) (h : r.coverageInterval c = .ok ci) :
    (ci.warnNegative.isSome ↔ ci.lo.isNeg) ∧ (ci.warnInfinite ↔ ci.hi.isInf) := by
  unfold Reso.coverageInterval at h
  cases hp : r.dist.ppf r.params [.fin (0.5 * (1 - c)), .fin (0.5 * (1 + c))] with
  | error e => simp [hp, bind, Except.bind] at h
  | ok o =>
    match o with
    | none => simp [hp, bind, Except.bind] at h
    | some [] => simp [hp, bind, Except.bind] at h
    | some [_] => simp [hp, bind, Except.bind] at h
    | some (_ :: _ :: _ :: _) => simp [hp, bind, Except.bind] at h
    | some [lo, hi] =>
      simp only [hp, bind, Except.bind] at h
      by_cases hn : lo.isNeg
      · simp only [hn, if_true] at h
        cases hv : r.dist.cdf [] [0] with
        | error e => simp [hv] at h
        | ok vs =>
          match vs with
          | [] => simp [hv] at h
          | _ :: _ :: _ => simp [hv] at h
          | [v] =>
            simp only [hv, Except.ok.injEq] at h
            subst h
            simp [hn]
      · simp only [hn, if_false, Except.ok.injEq] at h
        subst h
        simp [hn]

/-! ## C18 -/

/-- What the warning should say: `100 (1 - CDF(0))`, the share of the cross section at positive energies in percent. -/
def ReachableCoverage (r : Reso) (v : ℝ) : Prop :=
  ∃ σ, r.HasSigma σ ∧ 100 * (∫ E in Ioi 0, σ E) = v * ∫ E, σ E

/-- C18 is false of the code: for every Breit-Wigner or Gauss resonance with positive energy and
nonzero strength the warning reports 50 %, while the reachable coverage is larger. -/
theorem C18_refuted {r : Reso} (h : IsBreitWigner r ∨ IsGauss r) (hI : r.ics ≠ 0) (hE : 0 < r.er) (c : ℝ) (h0 : 0 ≤ c) (h1 : c < 1) :
    ∃ ci, r.coverageInterval c = .ok ci ∧
      (∀ w, ci.warnNegative = some w → w = .fin 50 ∧ ∀ v, ReachableCoverage r v → 50 < v) := by
  obtain ⟨F, p, Q, hA⟩ := analytic_of h
  obtain ⟨ci, hci, hlo, hhi, hw, -⟩ := hA.coverage h0 h1 (cdf_default h)
  refine ⟨ci, hci, fun w hwe => ⟨?_, ?_⟩⟩
  · rw [hw] at hwe
    split at hwe
    · simp only [Option.some.injEq] at hwe
      rw [← hwe]; norm_num
    · simp at hwe
  · rintro v ⟨σ, hσ, hv⟩
    have e : σ = fun E => r.ics * p E := by
      funext E
      have := hσ E
      rw [hA.sigma E] at this
      simpa using this.symm
    rw [e, integral_const_mul, integral_const_mul, hA.good.integral, hA.good.integral_Ioi] at hv
    obtain ⟨ci', hci', hlo', -⟩ := C16_coverage_zero h
    obtain ⟨ci'', hci'', hlo'', -⟩ := hA.coverage le_rfl one_pos (cdf_default h)
    rw [hci'] at hci''
    cases hci''
    rw [hlo'] at hlo''
    simp only [Fl.fin.injEq] at hlo''
    have hhalf : F r.er = 1 / 2 := by
      rw [hlo'', hA.inv _ (by norm_num) (by norm_num)]; norm_num
    have := hA.good.strictMono hE
    have hv' : 100 * (1 - F 0) = v := by
      have : r.ics * (100 * (1 - F 0)) = r.ics * v := by linarith
      exact mul_left_cancel₀ hI this
    rw [← hv']
    linarith

/-- ... and such warnings do occur. -/
theorem C18_warning_occurs {r : Reso} (h : IsBreitWigner r ∨ IsGauss r) :
    ∃ c ci, 0 ≤ c ∧ c < 1 ∧ r.coverageInterval c = .ok ci ∧ ci.warnNegative = some (.fin 50) := by
  obtain ⟨c0, hc1, hc0, hall⟩ := C17_refuted h
  obtain ⟨F, p, Q, hA⟩ := analytic_of h
  obtain ⟨ci, lo, hci, hlo, hneg⟩ := hall ((c0 + 1) / 2) (by linarith) (by linarith)
  obtain ⟨ci', hci', hlo', -, hw, -⟩ := hA.coverage (c := (c0 + 1) / 2) (by linarith) (by linarith) (cdf_default h)
  rw [hci] at hci'; cases hci'
  rw [hlo] at hlo'
  simp only [Fl.fin.injEq] at hlo'
  refine ⟨_, ci, by linarith, by linarith, hci, ?_⟩
  rw [hw, if_pos (by rw [← hlo']; exact hneg)]
  norm_num

/-! ## C19 -/

theorem uniformPdf_integral (l : ℝ) {s : ℝ} (hs : 0 < s) : ∫ x, uniformPdf l s x = 1 := by
  have : uniformPdf l s = (Icc l (l + s)).indicator fun _ => 1 / s := by
    funext x
    simp only [uniformPdf, indicator, mem_Icc]
  rw [this, integral_indicator measurableSet_Icc, setIntegral_const]
  simp [Measure.real, hs.le]
  field_simp

/-- C19 for the box shape of the base class. -/
theorem C19_box {k : PhysConst} {init inter : Level} {final : Option Level} {R : ℝ → ℝ} {r : Reso}
    (h : mkResonance k init inter final R = .ok r) :
    ∃ σ, r.HasSigma σ ∧ Integrable σ ∧ ∫ E, σ E = r.ics := by
  obtain ⟨-, -, -, -, -, -, -, hd, hp⟩ := mkResonance_inv h
  refine ⟨fun E => r.ics * uniformPdf (r.er - 0.5) 1 E, ?_, ?_, ?_⟩
  · intro E
    simp [Reso.call, hd, hp, uniformDist, scipyDist, locScale, bind, Except.bind, Fl.smul]
  · apply Integrable.const_mul
    have : uniformPdf (r.er - 0.5) 1 = (Icc (r.er - 0.5) (r.er - 0.5 + 1)).indicator fun _ => (1 : ℝ) / 1 := by
      funext x
      simp only [uniformPdf, indicator, mem_Icc]
    rw [this, integrable_indicator_iff measurableSet_Icc]
    exact integrableOn_const (by simp)
  · rw [integral_const_mul, uniformPdf_integral _ one_pos, mul_one]

/-- C19 for Breit-Wigner and Gauss. -/
theorem C19_analytic {r : Reso} (h : IsBreitWigner r ∨ IsGauss r) :
    ∃ σ, r.HasSigma σ ∧ Integrable σ ∧ ∫ E, σ E = r.ics := by
  obtain ⟨F, p, Q, hA⟩ := analytic_of h
  exact ⟨_, hA.sigma, hA.good.integrable.const_mul _, by rw [integral_const_mul, hA.good.integral, mul_one]⟩

example : ∃ r, mkResonance exConst exGround exExcited none noRecoil = .ok r := by
  obtain ⟨r, h, -⟩ := exResonance; exact ⟨r, h⟩

/-! ## C20 -/

/-- C20 is false of the code: for Breit-Wigner and Gauss with positive strength the integral over the physical energies
is strictly smaller than the integrated cross section. -/
theorem C20_refuted {r : Reso} (h : IsBreitWigner r ∨ IsGauss r) (hI : 0 < r.ics) (σ : ℝ → ℝ) (hσ : r.HasSigma σ) :
    ∫ E in Ioi 0, σ E < r.ics := by
  obtain ⟨F, p, Q, hA⟩ := analytic_of h
  have e : σ = fun E => r.ics * p E := by
    funext E
    have := hσ E
    rw [hA.sigma E] at this
    simpa using this.symm
  rw [e, integral_const_mul, hA.good.integral_Ioi]
  have := hA.good.gt_zero 0
  nlinarith

/-- C20, the part that holds for both shapes: for a positive resonance energy, more than half of the integrated cross section, and
what is missing is what a range of the same size above twice the resonance energy contains. -/
theorem C20_half_partial {r : Reso} (h : IsBreitWigner r ∨ IsGauss r) (hI : 0 < r.ics) (hE : 0 < r.er) (σ : ℝ → ℝ)
    (hσ : r.HasSigma σ) : r.ics / 2 < ∫ E in Ioi 0, σ E ∧
      (∫ E in Ioi 0, σ E) + ∫ E in Ioi (2 * r.er), σ E = r.ics := by
  obtain ⟨F, p, Q, hA, hsym⟩ := analytic_symm h
  have e : σ = fun E => r.ics * p E := by
    funext E
    have := hσ E
    rw [hA.sigma E] at this
    simpa using this.symm
  have h0 := hA.good.add_of_symm r.er hsym r.er
  have hlt := hA.good.strictMono (show r.er - r.er < r.er + r.er by linarith)
  rw [sub_self] at h0 hlt
  rw [e, integral_const_mul, integral_const_mul, hA.good.integral_Ioi, hA.good.integral_Ioi, show 2 * r.er = r.er + r.er by ring]
  constructor
  · nlinarith
  · linear_combination -r.ics * h0

/-- C20, the part that holds: the exact value for Breit-Wigner, which is at least half of the
integrated cross section for positive resonance energy. Missing: the claimed equality (false). -/
theorem C20_partial {r : Reso} {k : PhysConst} {init inter : Level} {final : Option Level} {w : ℝ}
    (hr : mkBreitWigner k init inter final = .ok r) (hw : inter.width = .ok w) (hpos : 0 < w) (σ : ℝ → ℝ)
    (hσ : r.HasSigma σ) :
    ∫ E in Ioi 0, σ E = r.ics * (1 / 2 + Real.arctan (2 * r.er / w) / Real.pi) := by
  obtain ⟨r0, w', h0, hw', rfl⟩ := mkBreitWigner_inv hr
  rw [hw] at hw'; cases hw'
  set r : Reso := { r0 with dist := cauchyDist, params := [r0.er, 0.5 * w] } with hrdef
  have hA : Analytic r _ _ _ := analytic_cauchy (l := r0.er) (s := 0.5 * w) rfl rfl (by linarith)
  have e : σ = fun E => r.ics * cauchyPdf r0.er (0.5 * w) E := by
    funext E
    have := hσ E
    rw [hA.sigma E] at this
    simpa using this.symm
  rw [e, integral_const_mul, hA.good.integral_Ioi]
  congr 1
  unfold cauchyCdf
  have e2 : (0 - r0.er) / (0.5 * w) = -(2 * r.er / w) := by
    simp only [hrdef]; field_simp; ring
  rw [e2, Real.arctan_neg]
  ring

example : ∃ r w, mkBreitWigner exConst exGround exExcited none = .ok r ∧ exExcited.width = .ok w ∧ 0 < w := by
  obtain ⟨r, h, -⟩ := exBreitWigner
  exact ⟨r, 4, h, exExcited_width, by norm_num⟩

end Ries
