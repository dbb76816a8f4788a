import Verif.Props.VoigtCoverage
import Verif.Props.Resonance

/-!
# C178: coverages outside the interval from 0 to 1

`coverage_interval` documents its argument as "float, between 0 and 1". A user who passes a percentage (95) or a difference with the
wrong sign relies on a rejection.
-/

namespace Ries

/-- no number between 0 and 1, so no probability -/
def Impossible (c : ℝ) : Prop := 1 < |c|

/-- a pair of limits that are no numbers, without any warning -/
def Reso.Cov.silentNan : Reso.Cov := ⟨.nan, .nan, none, False⟩

theorem ppfAt_outside (lo hi : Fl) (f : ℝ → ℝ) {q : ℝ} (h : q < 0 ∨ 1 < q) : ppfAt lo hi f (.fin q) = .nan := by
  show (if q = 0 then lo else if q = 1 then hi else if 0 < q ∧ q < 1 then .fin (f q) else .nan) = Fl.nan
  rcases h with h | h
  · rw [if_neg (by linarith), if_neg (by linarith), if_neg (by rintro ⟨a, b⟩; linarith)]
  · rw [if_neg (by linarith), if_neg (by linarith), if_neg (by rintro ⟨a, b⟩; linarith)]

theorem Impossible.quantiles {c : ℝ} (h : Impossible c) :
    (0.5 * (1 - c) < 0 ∨ 1 < 0.5 * (1 - c)) ∧ (0.5 * (1 + c) < 0 ∨ 1 < 0.5 * (1 + c)) := by
  unfold Impossible at h
  rcases lt_abs.1 h with h | h
  · exact ⟨Or.inl (by linarith), Or.inr (by linarith)⟩
  · exact ⟨Or.inr (by linarith), Or.inl (by linarith)⟩

theorem coverage_nan {r : Reso} {c : ℝ} (h : r.dist.ppf r.params [.fin (0.5 * (1 - c)), .fin (0.5 * (1 + c))] = .ok (some [.nan, .nan])) :
    r.coverageInterval c = .ok .silentNan := by
  unfold Reso.coverageInterval
  simp only [h, Bind.bind, Except.bind]
  simp [Fl.isNeg, Fl.isInf, Reso.Cov.silentNan]

theorem grid_nan {r : Reso} {c : ℝ} (h : r.coverageInterval c = .ok .silentNan) {n : ℤ} (hn : 0 ≤ n) :
    r.energyGrid (.cov c) n = .ok (List.replicate n.toNat .nan) := by
  unfold Reso.energyGrid
  simp only [h, Bind.bind, Except.bind, linspace, if_neg (not_lt.2 hn), Reso.Cov.silentNan]
  rcases n.toNat with _ | _ | m
  · simp
  · simp [Fl.add, Fl.smul]
  · simp only [Fl.add, Fl.smul, Except.ok.injEq, List.map_const', List.length_range]
    rw [← List.replicate_succ']

theorem scipy_nan {r : Reso} {pdf cdf ppf : ℝ → ℝ → ℝ → ℝ} {lo hi : ℝ → ℝ → Fl} {l s : ℝ} (hd : r.dist = scipyDist pdf cdf ppf lo hi)
    (hp : r.params = [l, s]) {c : ℝ} (hc : Impossible c) : r.coverageInterval c = .ok .silentNan := by
  apply coverage_nan
  rw [hd, hp]
  simp only [scipyDist, locScale, Bind.bind, Except.bind, List.map_cons, List.map_nil]
  rw [ppfAt_outside _ _ _ hc.quantiles.1, ppfAt_outside _ _ _ hc.quantiles.2]
  simp

/-- The resonance classes whose distributions come from scipy answer an impossible coverage with two nan, and no warning; an
equidistant grid consists of nan only. -/
theorem C178_partial {s : Shape} {k : PhysConst} {init inter : Level} {final : Option Level} {r : Reso}
    (hr : s.build k init inter final = .ok r) (hs : (∃ R, s = .box R) ∨ s = .breitWigner ∨ ∃ amu T, s = .gauss amu T) {c : ℝ}
    (hc : Impossible c) : r.coverageInterval c = .ok .silentNan ∧
      ∀ n : ℤ, 0 ≤ n → r.energyGrid (.cov c) n = .ok (List.replicate n.toNat .nan) := by
  have key : r.coverageInterval c = .ok .silentNan := by
    rcases hs with ⟨R, rfl⟩ | rfl | ⟨amu, T, rfl⟩
    · have h := (mkResonance_inv hr).2.2.2.2.2.2.2
      exact scipy_nan (by rw [h.1]; unfold uniformDist; rfl) h.2 hc
    · obtain ⟨r0, w, -, -, rfl⟩ := mkBreitWigner_inv hr
      exact scipy_nan (r := { r0 with dist := cauchyDist, params := [r0.er, 0.5 * w] }) (pdf := cauchyPdf)
        (cdf := cauchyCdf) (ppf := cauchyPpf) (lo := fun _ _ => .ninf) (hi := fun _ _ => .pinf) rfl rfl hc
    · obtain ⟨r0, -, -, rfl⟩ := mkGauss_inv hr
      exact scipy_nan (r := { r0 with dist := normDist, params := _ }) (pdf := normPdf) (cdf := normCdf)
        (ppf := fun l s => invOf (normCdf l s)) (lo := fun _ _ => .ninf) (hi := fun _ _ => .pinf) rfl rfl hc
  exact ⟨key, fun n hn => grid_nan key hn⟩

/-- A negative coverage gives the interval of the positive one with the limits exchanged. -/
theorem C178_negative {r : Reso} (h : IsBreitWigner r ∨ IsGauss r) {c : ℝ} (h0 : 0 < c) (h1 : c < 1) :
    ∃ (ci di : Reso.Cov) (lo hi : ℝ), r.coverageInterval c = .ok ci ∧ r.coverageInterval (-c) = .ok di ∧
      ci.lo = .fin lo ∧ ci.hi = .fin hi ∧ lo < hi ∧ di.lo = .fin hi ∧ di.hi = .fin lo := by
  obtain ⟨F, p, Q, hA⟩ := analytic_of h
  obtain ⟨ci, hci, hlo, hhi, -⟩ := hA.coverage h0.le h1 (cdf_default h)
  have hp := hA.ppf [0.5 * (1 - -c), 0.5 * (1 + -c)] (by
    intro q hq
    simp only [List.mem_cons, List.not_mem_nil, or_false] at hq
    rcases hq with rfl | rfl <;> constructor <;> linarith)
  have e1 : 0.5 * (1 - -c) = 0.5 * (1 + c) := by ring
  have e2 : 0.5 * (1 + -c) = 0.5 * (1 - c) := by ring
  obtain ⟨di, hdi, l1, l2⟩ : ∃ di, r.coverageInterval (-c) = .ok di ∧ di.lo = .fin (Q (0.5 * (1 + c))) ∧
      di.hi = .fin (Q (0.5 * (1 - c))) := by
    unfold Reso.coverageInterval
    simp only [List.map_cons, List.map_nil] at hp
    simp only [hp, Bind.bind, Except.bind, cdf_default h]
    rw [e1, e2]
    by_cases hn : (Fl.fin (Q (0.5 * (1 + c)))).isNeg
    · simp [hn]
    · simp [hn]
  exact ⟨ci, di, _, _, hci, hdi, hlo, hhi, hA.Q_lt (by linarith) (by linarith) (by linarith), l1, l2⟩

/-- No component of the iteration for an impossible quantile ever converges, if the distribution is wide enough. -/
theorem newton_outside {F p : ℝ → ℝ} {x0 : ℝ} (h : GoodCDF F p) (hp : Peaked x0 p) {qs : List ℝ} (hne : qs ≠ [])
    (hq : ∀ q ∈ qs, q ≤ -(newtonTol * p x0) ∨ 1 + newtonTol * p x0 ≤ q) :
    newtonArray F p x0 qs = .error .runtimeError := by
  have htol := newtonTol_pos
  have hp0 := h.pos x0
  have key : ∀ q ∈ qs, ∀ x, newtonTol ≤ |(F x - q) / p x| ∧ F x - q ≠ 0 := by
    intro q hqm x
    have hm : newtonTol * p x ≤ newtonTol * p x0 := mul_le_mul_of_nonneg_left (hp.le_peak x) htol.le
    have hpx : 0 < newtonTol * p x := mul_pos htol (h.pos x)
    rw [abs_div, abs_of_pos (h.pos x), le_div_iff₀ (h.pos x)]
    rcases hq q hqm with hq | hq
    · have := h.gt_zero x
      exact ⟨by rw [abs_of_pos (by linarith)]; linarith, by intro; linarith⟩
    · have := h.lt_one x
      exact ⟨by rw [abs_of_neg (by linarith)]; linarith, by intro; linarith⟩
  have hinv := newtonLoop_inv h.pos (fun st => st.map (·.q) = qs ∧ ∀ e ∈ st, e.failed = true ∧ e.nz = true) (F := F) (by
    rintro st ⟨h1, h2⟩
    refine ⟨?_, ?_⟩
    · rw [← h1, List.map_map]
      apply List.map_congr_left
      intro e _
      simp [step_eq h.pos]
    · intro e he
      obtain ⟨e0, he0, rfl⟩ := List.mem_map.1 he
      rw [step_eq h.pos]
      refine ⟨?_, rfl⟩
      exact decide_eq_true (key e0.q (by rw [← h1]; exact List.mem_map_of_mem (f := NEl.q) he0) _).1) (by
    rintro st ⟨h1, h2⟩ hz
    cases st with
    | nil => exact absurd h1.symm hne
    | cons e st => exact absurd (hz e (by simp)) (key e.q (by rw [← h1]; simp) _).2) 50
    (qs.map fun q => ⟨q, x0, true, true⟩) (by
      refine ⟨by simp [List.map_map, Function.comp_def], ?_⟩
      intro e he
      obtain ⟨q, -, rfl⟩ := List.mem_map.1 he
      exact ⟨rfl, rfl⟩)
  unfold newtonArray
  simp only
  generalize newtonLoop F p 50 (qs.map fun q => ⟨q, x0, true, true⟩) = st at *
  rw [if_neg, if_pos]
  · rw [List.all_eq_true]
    intro e he
    exact (hinv.2 e he).1
  · rw [List.any_eq_true]
    rintro ⟨e, he, hb⟩
    simp [(hinv.2 e he).2] at hb

/-- All components that are within the tolerance after the first step are returned there. -/
theorem newton_first {F p : ℝ → ℝ} {x0 : ℝ} (h : GoodCDF F p) {qs : List ℝ} (hne : ∃ q ∈ qs, F x0 ≠ q)
    (hq : ∀ q ∈ qs, |(F x0 - q) / p x0| < newtonTol) :
    newtonArray F p x0 qs = .ok (qs.map fun q => x0 - (F x0 - q) / p x0, qs.map fun _ => true) := by
  obtain ⟨q0, hq0, hq0'⟩ := hne
  have e : newtonLoop F p 50 (qs.map fun q => ⟨q, x0, true, true⟩) =
      qs.map fun q => ⟨q, x0 - (F x0 - q) / p x0, false, true⟩ := by
    unfold newtonLoop
    rw [if_neg, if_neg]
    · have : (qs.map fun q => (⟨q, x0, true, true⟩ : NEl)).map (NEl.step F p) =
          qs.map fun q => ⟨q, x0 - (F x0 - q) / p x0, false, true⟩ := by
        rw [List.map_map]
        apply List.map_congr_left
        intro q hqm
        simp only [Function.comp_apply, step_eq h.pos]
        rw [decide_eq_false (not_le.2 (hq q hqm))]
      simp only [this]
      rw [if_pos]
      intro e he _
      obtain ⟨q, -, rfl⟩ := List.mem_map.1 he
      rfl
    · intro hall
      exact (h.pos x0).ne' (hall ⟨q0, x0, true, true⟩ (List.mem_map.2 ⟨q0, hq0, rfl⟩))
    · intro hall
      exact hq0' (sub_eq_zero.1 (hall ⟨q0, x0, true, true⟩ (List.mem_map.2 ⟨q0, hq0, rfl⟩)))
  unfold newtonArray
  simp only [e]
  rw [if_neg, if_neg]
  · simp [Function.comp_def]
  · rw [List.all_eq_true]
    intro hall
    have := hall _ (List.mem_map.2 ⟨q0, hq0, rfl⟩)
    simp at this
  · rw [List.any_eq_true]
    rintro ⟨e, he, hb⟩
    obtain ⟨q, -, rfl⟩ := List.mem_map.1 he
    simp at hb

/-- peak of the density of a pseudo-Voigt distribution -/
theorem PV.Ok.peak {er w d : ℝ} (h : PV.Ok w d) : 0.93 / (mkPV er w d).bigGamma ≤ (mkPV er w d).pdfR er ∧
    (mkPV er w d).pdfR er ≤ 1.28 / (mkPV er w d).bigGamma := by
  obtain ⟨a1, a2, a3, a4⟩ := h.peaks (er := er)
  obtain ⟨e0, e1⟩ := h.eta_bounds (er := er)
  have her : (mkPV er w d).er = er := rfl
  unfold PV.pdfR
  rw [her]
  generalize (mkPV er w d).eta = t at *
  generalize 0.93 / (mkPV er w d).bigGamma = A at *
  generalize 1.28 / (mkPV er w d).bigGamma = B at *
  have h1 : 0 ≤ 1 - t := by linarith
  constructor
  · have := mul_le_mul_of_nonneg_left a1 h1
    have := mul_le_mul_of_nonneg_left a3 e0
    linarith
  · have := mul_le_mul_of_nonneg_left a2 h1
    have := mul_le_mul_of_nonneg_left a4 e0
    linarith

theorem pv_quantile_fun {r : Reso} {w d : ℝ} (h : IsPseudoVoigtOf r w d ∨ IsVoigtOf r w d) : PV.Ok w d ∧
    (∀ qs : List ℝ, r.dist.ppf r.params (qs.map .fin) = .ok ((mkPV r.er w d).ppfArray qs).values) ∧
    r.dist.cdf = (mkPV r.er w d).toDist.cdf ∧ r.params = [] := by
  rcases h with h | h <;> obtain ⟨hok, hd, hp⟩ := h.inv <;> refine ⟨hok, fun qs => ?_, by rw [hd]; try rfl, hp⟩ <;> rw [hd, hp]
  · simp only [PV.toDist, if_true, finList_map]
  · simp only [PV.toSemiDist, PV.toDist, if_true, finList_map]

/-- Pseudo-Voigt and Voigt resonances that are not extremely narrow answer an impossible coverage by nan as well (after the
warning of the fallback of the quantile function). -/
theorem C178_pseudoVoigt_wide {r : Reso} {w d : ℝ} (h : IsPseudoVoigtOf r w d ∨ IsVoigtOf r w d) {c : ℝ} (hc : Impossible c)
    (hw : 3.8e-8 ≤ (|c| - 1) * max w (2 * Real.sqrt (Real.log 2) * d)) : r.coverageInterval c = .ok .silentNan := by
  obtain ⟨hok, hq, -, -⟩ := pv_quantile_fun h
  apply coverage_nan
  have := hq [0.5 * (1 - c), 0.5 * (1 + c)]
  simp only [List.map_cons, List.map_nil] at this
  rw [this]
  have hG := hok.gamma_pos (er := r.er)
  have hmax : max w (2 * Real.sqrt (Real.log 2) * d) ≤ (mkPV r.er w d).bigGamma :=
    max_le (pvGamma_ge_right hok.g0 hok.w0) (pvGamma_ge_left hok.g0 hok.w0)
  have hc' : 0 < |c| - 1 := sub_pos.2 hc
  have hb : newtonTol * (mkPV r.er w d).pdfR r.er ≤ (|c| - 1) / 2 := by
    have h1 := hok.peak (er := r.er)
    have h2 : 3.8e-8 ≤ (|c| - 1) * (mkPV r.er w d).bigGamma := hw.trans (mul_le_mul_of_nonneg_left hmax hc'.le)
    have h3 : newtonTol * (mkPV r.er w d).pdfR r.er ≤ 1.48e-8 * (1.28 / (mkPV r.er w d).bigGamma) :=
      mul_le_mul_of_nonneg_left h1.2 newtonTol_pos.le
    refine h3.trans ?_
    rw [mul_div_assoc', div_le_iff₀ hG]
    linarith
  have hn := newton_outside (hok.good (er := r.er)) hok.peaked (qs := [0.5 * (1 - c), 0.5 * (1 + c)]) (by simp) (by
    intro q hqm
    simp only [List.mem_cons, List.not_mem_nil, or_false] at hqm
    rcases lt_abs.1 hc with h1 | h1
    · rw [abs_of_pos (by linarith)] at hb
      rcases hqm with rfl | rfl
      · left; linarith
      · right; linarith
    · rw [abs_of_neg (by linarith)] at hb
      rcases hqm with rfl | rfl
      · right; linarith
      · left; linarith)
  have her : (mkPV r.er w d).er = r.er := rfl
  unfold PV.ppfArray
  rw [if_pos hok.valid, her, hn]
  simp only [List.map_cons, List.map_nil, PV.ppfMix]
  rw [ppfAt_outside _ _ _ hc.quantiles.1, ppfAt_outside _ _ _ hc.quantiles.2, ppfAt_outside _ _ _ hc.quantiles.1,
    ppfAt_outside _ _ _ hc.quantiles.2]
  simp [Fl.smul, Fl.add]

/-- Extremely narrow pseudo-Voigt and Voigt resonances accept every coverage that is small compared to 2.7e-8 MeV over the width,
possible or not: the limits are finite numbers, at a distance from the resonance energy proportional to the coverage. -/
theorem C178_pseudoVoigt_narrow {r : Reso} {w d : ℝ} (h : IsPseudoVoigtOf r w d ∨ IsVoigtOf r w d) {c : ℝ} (hc : c ≠ 0)
    (hw : |c| * (2 * Real.sqrt (Real.log 2) * d + w) ≤ 2.7e-8) : ∃ (ci : Reso.Cov) (δ : ℝ), 0 < δ ∧
      r.coverageInterval c = .ok ci ∧ ci.lo = .fin (r.er - c * δ) ∧ ci.hi = .fin (r.er + c * δ) := by
  obtain ⟨hok, hq, hcdf, hpar⟩ := pv_quantile_fun h
  have hG := hok.gamma_pos (er := r.er)
  have hp0 := hok.good.pos (x := r.er) (F := (mkPV r.er w d).cdfR)
  have hhalf := hok.half (er := r.er)
  set P := (mkPV r.er w d).pdfR r.er with hP
  have hsmall : |c| / 2 / P < newtonTol := by
    have h1 := (hok.peak (er := r.er)).1
    have h2 : |c| * (mkPV r.er w d).bigGamma ≤ 2.7e-8 := (mul_le_mul_of_nonneg_left hok.gamma_le (abs_nonneg c)).trans hw
    rw [div_lt_iff₀ hp0]
    refine lt_of_lt_of_le ?_ (mul_le_mul_of_nonneg_left h1 newtonTol_pos.le)
    rw [mul_div_assoc', lt_div_iff₀ hG]
    have : newtonTol * 0.93 = 1.48e-8 * 0.93 := rfl
    rw [this]
    linarith
  have hs1 : ((1 : ℝ) / 2 - 0.5 * (1 - c)) / P = c * (1 / (2 * P)) := by field_simp; ring
  have hs2 : ((1 : ℝ) / 2 - 0.5 * (1 + c)) / P = -(c * (1 / (2 * P))) := by field_simp; ring
  have habs : |c * (1 / (2 * P))| < newtonTol := by
    rw [abs_mul, abs_of_pos (show (0 : ℝ) < 1 / (2 * P) by positivity)]
    refine lt_of_eq_of_lt ?_ hsmall
    field_simp
  have hn := newton_first (hok.good (er := r.er)) (x0 := r.er) (qs := [0.5 * (1 - c), 0.5 * (1 + c)])
    ⟨0.5 * (1 - c), by simp, by rw [hhalf]; intro e; apply hc; linarith⟩ (by
    intro q hqm
    simp only [List.mem_cons, List.not_mem_nil, or_false] at hqm
    rw [hhalf]
    rcases hqm with rfl | rfl
    · rw [hs1]; exact habs
    · rw [hs2, abs_neg]; exact habs)
  have her : (mkPV r.er w d).er = r.er := rfl
  have hval : ((mkPV r.er w d).ppfArray [0.5 * (1 - c), 0.5 * (1 + c)]).values =
      some [.fin (r.er - c * (1 / (2 * P))), .fin (r.er + c * (1 / (2 * P)))] := by
    unfold PV.ppfArray
    rw [if_pos hok.valid, her, hn]
    simp only [List.map_cons, List.map_nil, hhalf, ← hP, hs1, hs2]
    simp
  have hp := hq [0.5 * (1 - c), 0.5 * (1 + c)]
  simp only [List.map_cons, List.map_nil, hval] at hp
  obtain ⟨ci, hci, l1, l2⟩ : ∃ ci, r.coverageInterval c = .ok ci ∧ ci.lo = .fin (r.er - c * (1 / (2 * P))) ∧
      ci.hi = .fin (r.er + c * (1 / (2 * P))) := by
    unfold Reso.coverageInterval
    simp only [hp, Bind.bind, Except.bind, hcdf]
    generalize r.er - c * (1 / (2 * P)) = lo
    generalize r.er + c * (1 / (2 * P)) = hi
    by_cases hneg : (Fl.fin lo).isNeg
    · simp [hneg, PV.toDist]
    · simp [hneg]
  exact ⟨ci, _, by positivity, hci, l1, l2⟩

/-- C178 is false: the coverage 95 (meant as a percentage) raises nothing. -/
theorem C178_refuted : ∃ r, IsBreitWigner r ∧ Impossible 95 ∧ r.coverageInterval 95 = .ok .silentNan := by
  obtain ⟨r, hr, -, -⟩ := exBreitWigner
  have hc : Impossible 95 := by unfold Impossible; norm_num
  exact ⟨r, ⟨_, _, _, _, _, hr, exExcited_width, by norm_num⟩, hc,
    (C178_partial (s := .breitWigner) hr (Or.inr (Or.inl rfl)) hc).1⟩

/-- The coverage 1.3 is accepted by a resonance of width 20 meV: the limits are finite numbers. -/
theorem C178_refuted_finite : ∃ (r : Reso) (ci : Reso.Cov) (lo hi : ℝ), IsPseudoVoigtOf r 2e-8 0 ∧ Impossible 1.3 ∧
    r.coverageInterval 1.3 = .ok ci ∧ ci.lo = .fin lo ∧ ci.hi = .fin hi ∧ lo < r.er ∧ r.er < hi := by
  obtain ⟨r, hr, he, -⟩ := exThin_resonance
  have h : IsPseudoVoigtOf { r with dist := (mkPV r.er 2e-8 0).toDist, params := [] } 2e-8 0 := by
    refine ⟨exConst, exGround, exThin, 11, 0, none, ?_, by norm_num, le_rfl,
      by norm_num [exGround, exThin, groundState, state], exThin_width, ?_, by norm_num, Or.inl (by norm_num)⟩
    · simp [mkPseudoVoigt, hr, exThin_width, getDopplerWidth_ok exConst (show (11 : ℝ) ≠ 0 by norm_num), Bind.bind, Except.bind,
        dopplerWidth]
    · rw [getDopplerWidth_ok exConst (show (11 : ℝ) ≠ 0 by norm_num)]
      simp [dopplerWidth]
  obtain ⟨ci, δ, hδ, hci, l1, l2⟩ := C178_pseudoVoigt_narrow (Or.inl h) (c := 1.3) (by norm_num) (by norm_num)
  exact ⟨_, ci, _, _, h, by unfold Impossible; norm_num, hci, l1, l2, by simp only; linarith, by simp only; linarith⟩

/-- The hypotheses are met: a box, a Gauss resonance, a negative coverage. -/
example : ∃ r r', Shape.build (.gauss 11 293) exConst exGround exExcited none = .ok r ∧
    Shape.build (.box noRecoil) exConst exGround exExcited none = .ok r' ∧ Impossible 95 ∧ Impossible (-2) := by
  obtain ⟨r, hr, -⟩ := exGauss
  obtain ⟨r', hr', -⟩ := exResonance
  exact ⟨r, r', hr, hr', by unfold Impossible; norm_num, by unfold Impossible; norm_num⟩

/-- A pseudo-Voigt resonance of width 10 eV at temperature 0 is wide enough for the coverage 95. -/
example : ∃ r, IsPseudoVoigtOf r 1e-5 0 ∧ Impossible 95 ∧ 3.8e-8 ≤ (|(95 : ℝ)| - 1) * max 1e-5 (2 * Real.sqrt (Real.log 2) * 0) := by
  obtain ⟨r, hr, he, hI⟩ := exMid_resonance
  refine ⟨{ r with dist := (mkPV r.er 1e-5 0).toDist, params := [] }, ⟨exConst, exGround, exMid, 11, 0, none, ?_, by norm_num, le_rfl,
      by norm_num [exGround, exMid, groundState, state], exMid_width, ?_, by norm_num, Or.inl (by norm_num)⟩,
      by unfold Impossible; norm_num, by norm_num⟩
  · simp [mkPseudoVoigt, hr, exMid_width, getDopplerWidth_ok exConst (show (11 : ℝ) ≠ 0 by norm_num), Bind.bind, Except.bind,
      dopplerWidth]
  · rw [getDopplerWidth_ok exConst (show (11 : ℝ) ≠ 0 by norm_num)]
    simp [dopplerWidth]

end Ries
