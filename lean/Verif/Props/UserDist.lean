import Verif.Spec.UserDist
import Verif.Props.Resonance

/-! # Property C151: user-defined probability distributions -/

open MeasureTheory Set

namespace Ries
namespace IsContinuousDist
variable {d : Dist} {ps : List ℝ} {p : ℝ → ℝ} {Q : ℝ → Fl}

theorem sub (h : IsContinuousDist d ps p Q) (a b : ℝ) :
    ∫ E in a..b, p E = (∫ E in Iic b, p E) - ∫ E in Iic a, p E :=
  (intervalIntegral.integral_Iic_sub_Iic h.integrable.integrableOn h.integrable.integrableOn).symm

theorem mono (h : IsContinuousDist d ps p Q) : Monotone fun x => ∫ E in Iic x, p E := by
  intro a b hab
  have := h.sub a b
  have h0 := intervalIntegral.integral_nonneg (μ := volume) hab fun E _ => h.nonneg E
  simp only
  linarith

theorem cdf_nonneg (h : IsContinuousDist d ps p Q) (x : ℝ) : 0 ≤ ∫ E in Iic x, p E :=
  setIntegral_nonneg measurableSet_Iic fun E _ => h.nonneg E

theorem tail (h : IsContinuousDist d ps p Q) (x : ℝ) : ∫ E in Ioi x, p E = 1 - ∫ E in Iic x, p E := by
  have := intervalIntegral.integral_Iic_add_Ioi (b := x) h.integrable.integrableOn h.integrable.integrableOn
  rw [h.total] at this
  linarith

theorem cdf_le_one (h : IsContinuousDist d ps p Q) (x : ℝ) : ∫ E in Iic x, p E ≤ 1 := by
  have := h.tail x
  have h0 : 0 ≤ ∫ E in Ioi x, p E := setIntegral_nonneg measurableSet_Ioi fun E _ => h.nonneg E
  linarith

/-- real quantiles -/
theorem exists_quantile (h : IsContinuousDist d ps p Q) :
    ∃ X : ℝ → ℝ, ∀ q, 0 < q → q < 1 → Q q = .fin (X q) ∧ ∫ E in Iic (X q), p E = q := by
  classical
  refine ⟨fun q => if hq : 0 < q ∧ q < 1 then (h.inv q hq.1 hq.2).choose else 0, fun q h0 h1 => ?_⟩
  simp only [dif_pos (And.intro h0 h1)]
  exact (h.inv q h0 h1).choose_spec

end IsContinuousDist

/-- item assignment at both ends of a list given by its entries -/
theorem setEnds_range (a b : Fl) (m : ℕ) (H : ℕ → Fl) :
    Reso.setEnds a b ((List.range (m + 2)).map H) =
      .ok ((List.range (m + 2)).map fun i => if i = 0 then a else if i = m + 1 then b else H i) := by
  rw [List.range_succ_eq_map, List.map_cons, List.map_map, List.map_cons, List.map_map]
  have hne : (List.range (m + 1)).map (H ∘ Nat.succ) ≠ [] := by simp
  obtain ⟨y, t, hyt⟩ := List.exists_cons_of_ne_nil hne
  rw [hyt]
  simp only [Reso.setEnds, if_true, Except.ok.injEq, List.cons.injEq, true_and]
  rw [← hyt, List.range_succ, List.map_append, List.map_append]
  simp only [List.map_cons, List.map_nil, List.dropLast_concat]
  congr 1
  · apply List.map_congr_left
    intro i hi
    simp only [List.mem_range] at hi
    simp [hi.ne]
  · simp

/-- points whose cumulated probabilities are equally spaced: strictly increasing, equal shares -/
theorem userGrid {d : Dist} {ps : List ℝ} {p : ℝ → ℝ} {Q : ℝ → Fl} (h : IsContinuousDist d ps p Q) (I : ℝ)
    {u v : ℝ} (huv : u < v) (m : ℕ) (G : ℕ → ℝ)
    (hG : ∀ i < m + 2, ∫ E in Iic (G i), p E = u + i * ((v - u) / (m + 1))) :
    ((List.range (m + 2)).map G).Pairwise (· < ·) ∧
      EqualShares (fun E => I * p E) ((List.range (m + 2)).map G) (I * ((v - u) / (m + 1))) := by
  have hs : 0 < (v - u) / ((m : ℝ) + 1) := div_pos (by linarith) (by positivity)
  constructor
  · rw [List.pairwise_map]
    refine (List.pairwise_lt_range).imp_of_mem fun {i j} hi hj hij => ?_
    simp only [List.mem_range] at hi hj
    refine h.mono.reflect_lt ?_
    rw [hG i hi, hG j hj]
    have : (i : ℝ) < j := by exact_mod_cast hij
    have := mul_lt_mul_of_pos_right this hs
    linarith
  · intro i hi
    simp only [List.length_map, List.length_range] at hi
    simp only [List.getElem_map, List.getElem_range]
    rw [intervalIntegral.integral_const_mul, h.sub, hG i (by omega), hG (i + 1) hi]
    push_cast
    ring

/-- C151: the values and the integral of a resonance with a user-defined distribution. -/
theorem C151_value {r : Reso} {d : Dist} {ps : List ℝ} {p : ℝ → ℝ} {Q : ℝ → Fl} (h : IsContinuousDist d ps p Q) :
    (r.assign d ps).HasSigma (fun E => r.ics * p E) ∧ ∫ E, r.ics * p E = r.ics := by
  refine ⟨fun E => ?_, ?_⟩
  · simp [Reso.call, Reso.assign, h.pdf, bind, Except.bind, Fl.smul]
  · rw [integral_const_mul, h.total, mul_one]

/-- C151: the equal-probability grid over limits between which the cross section does not vanish. -/
theorem C151_limits_grid {r : Reso} {d : Dist} {ps : List ℝ} {p : ℝ → ℝ} {Q : ℝ → Fl} (h : IsContinuousDist d ps p Q)
    {a b : ℝ} (hab : 0 < ∫ E in a..b, p E) (n : ℤ) (hn : 2 ≤ n) :
    ∃ (g : List ℝ) (σ : ℝ → ℝ), (r.assign d ps).probGrid (.lims a b) n = .ok (some (g.map .fin)) ∧
      (r.assign d ps).HasSigma σ ∧ (g.length : ℤ) = n ∧ g.head? = some a ∧ g.getLast? = some b ∧
      g.Pairwise (· < ·) ∧ EqualShares σ g ((∫ E in a..b, σ E) / (n - 1)) := by
  obtain ⟨m, rfl⟩ : ∃ m : ℕ, n = (m : ℤ) + 2 := ⟨(n - 2).toNat, by omega⟩
  obtain ⟨X, hX⟩ := h.exists_quantile
  set u := ∫ E in Iic a, p E with hu
  set v := ∫ E in Iic b, p E with hv
  have hsub := h.sub a b
  have huv : u < v := by linarith
  have hu0 := h.cdf_nonneg a
  have hv1 := h.cdf_le_one b
  have hm : (0 : ℝ) < m + 1 := by positivity
  have hs : 0 < (v - u) / ((m : ℝ) + 1) := div_pos (by linarith) hm
  have hq : ∀ i, i ≠ 0 → i < m + 1 → 0 < u + i * ((v - u) / ((m : ℝ) + 1)) ∧ u + i * ((v - u) / ((m : ℝ) + 1)) < 1 := by
    intro i h0 h1
    have h0' : (0 : ℝ) < i := by exact_mod_cast Nat.pos_of_ne_zero h0
    have h1' : (i : ℝ) < m + 1 := by exact_mod_cast h1
    have e1 := mul_pos h0' hs
    have e2 := mul_lt_mul_of_pos_right h1' hs
    have e3 : ((m : ℝ) + 1) * ((v - u) / (m + 1)) = v - u := by field_simp
    exact ⟨by linarith, by linarith⟩
  let G : ℕ → ℝ := fun i => if i = 0 then a else if i = m + 1 then b else X (u + i * ((v - u) / (m + 1)))
  have hG : ∀ i < m + 2, ∫ E in Iic (G i), p E = u + i * ((v - u) / (m + 1)) := by
    intro i hi
    simp only [G]
    split
    · next e => subst e; simp [hu]
    · split
      · next e => subst e; push_cast; rw [← hv]; field_simp; ring
      · next h0 h1 =>
          obtain ⟨e1, e2⟩ := hq i h0 (by omega)
          exact (hX _ e1 e2).2
  obtain ⟨hpw, hsh⟩ := userGrid h r.ics huv m G hG
  refine ⟨(List.range (m + 2)).map G, _, ?_, (C151_value h).1, by simp, ?_, ?_, hpw, ?_⟩
  · have hpp := h.ppf ((List.range (m + 2)).map fun i : ℕ => u + i * ((v - u) / (m + 1))) (by
      intro q hqm
      simp only [List.mem_map, List.mem_range] at hqm
      obtain ⟨i, hi, rfl⟩ := hqm
      have := linspace_mem huv.le m hi
      exact ⟨by linarith, by linarith⟩)
    simp only [List.map_map, Function.comp_def] at hpp
    unfold Reso.probGrid
    simp only [Reso.assign, h.cdf, List.map_cons, List.map_nil, bind, Except.bind, linspace_nat]
    rw [← hu, ← hv, hpp]
    simp only [setEnds_range, Except.map, List.map_map, Except.ok.injEq, Option.some.injEq]
    apply List.map_congr_left
    intro i hi
    simp only [List.mem_range] at hi
    simp only [G, Function.comp]
    split
    · rfl
    · split
      · rfl
      · next h0 h1 =>
          obtain ⟨e1, e2⟩ := hq i h0 (by omega)
          exact (hX _ e1 e2).1
  · simp [G, List.head?_range]
  · rw [List.range_succ]
    simp [G]
  · convert hsh using 1
    rw [intervalIntegral.integral_const_mul, hsub]
    push_cast
    rw [mul_div_assoc]
    congr 2
    ring

/-- C151: the equal-probability grid for a coverage in (0,1). -/
theorem C151_coverage_grid {r : Reso} {d : Dist} {ps : List ℝ} {p : ℝ → ℝ} {Q : ℝ → Fl} (h : IsContinuousDist d ps p Q)
    {c : ℝ} (h0 : 0 < c) (h1 : c < 1) (n : ℤ) (hn : 2 ≤ n) :
    ∃ (g : List ℝ) (σ : ℝ → ℝ) (lo hi : ℝ), (r.assign d ps).probGrid (.cov c) n = .ok (some (g.map .fin)) ∧
      (r.assign d ps).HasSigma σ ∧ (g.length : ℤ) = n ∧ g.head? = some lo ∧ g.getLast? = some hi ∧
      g.Pairwise (· < ·) ∧
      (∫ E in lo..hi, σ E) = c * ∫ E, σ E ∧
      (∫ E in Iic lo, σ E) = (1 - c) / 2 * ∫ E, σ E ∧
      (∫ E in Ioi hi, σ E) = (1 - c) / 2 * ∫ E, σ E ∧
      EqualShares σ g (c / (n - 1) * ∫ E, σ E) := by
  obtain ⟨m, rfl⟩ : ∃ m : ℕ, n = (m : ℤ) + 2 := ⟨(n - 2).toNat, by omega⟩
  obtain ⟨X, hX⟩ := h.exists_quantile
  have hlt : 0.5 * (1 - c) < 0.5 * (1 + c) := by linarith
  have hq : ∀ i < m + 2, 0 < 0.5 * (1 - c) + i * ((0.5 * (1 + c) - 0.5 * (1 - c)) / ((m : ℝ) + 1)) ∧
      0.5 * (1 - c) + i * ((0.5 * (1 + c) - 0.5 * (1 - c)) / ((m : ℝ) + 1)) < 1 := by
    intro i hi
    have := linspace_mem hlt.le m hi
    exact ⟨by linarith, by linarith⟩
  let G : ℕ → ℝ := fun i => X (0.5 * (1 - c) + i * ((0.5 * (1 + c) - 0.5 * (1 - c)) / (m + 1)))
  have hG : ∀ i < m + 2, ∫ E in Iic (G i), p E = 0.5 * (1 - c) + i * ((0.5 * (1 + c) - 0.5 * (1 - c)) / (m + 1)) :=
    fun i hi => (hX _ (hq i hi).1 (hq i hi).2).2
  obtain ⟨hpw, hsh⟩ := userGrid h r.ics hlt m G hG
  have hm : (m : ℝ) + 1 ≠ 0 := by positivity
  have g0 := hG 0 (by omega)
  have g1 := hG (m + 1) (by omega)
  have e0 : ∫ E in Iic (G 0), p E = (1 - c) / 2 := by rw [g0]; push_cast; ring
  have e1 : ∫ E in Iic (G (m + 1)), p E = (1 + c) / 2 := by
    rw [g1]; push_cast; field_simp; ring
  refine ⟨(List.range (m + 2)).map G, _, G 0, G (m + 1), ?_, (C151_value h).1, by simp, ?_, ?_, hpw, ?_, ?_, ?_, ?_⟩
  · have hpp := h.ppf ((List.range (m + 2)).map fun i : ℕ =>
        0.5 * (1 - c) + i * ((0.5 * (1 + c) - 0.5 * (1 - c)) / (m + 1))) (by
      intro q hqm
      simp only [List.mem_map, List.mem_range] at hqm
      obtain ⟨i, hi, rfl⟩ := hqm
      exact ⟨(hq i hi).1.le, (hq i hi).2.le⟩)
    simp only [List.map_map, Function.comp_def] at hpp
    simp only [Reso.probGrid, Reso.assign, bind, Except.bind, linspace_nat, hpp, List.map_map, Except.ok.injEq,
      Option.some.injEq]
    apply List.map_congr_left
    intro i hi
    simp only [List.mem_range] at hi
    exact (hX _ (hq i hi).1 (hq i hi).2).1
  · simp [List.head?_range]
  · rw [List.range_succ]
    simp
  · rw [(C151_value h (r := r)).2, intervalIntegral.integral_const_mul, h.sub, e0, e1]; ring
  · rw [(C151_value h (r := r)).2, integral_const_mul, e0]; ring
  · rw [(C151_value h (r := r)).2, integral_const_mul, h.tail, e1]; ring
  · rw [(C151_value h (r := r)).2]
    convert hsh using 1
    push_cast
    ring

/-- C151 (partial): the coverage interval carries the coverage with equal tails whenever its lower end is not
negative; if it is negative, the outcome is decided by `cdf(0.0)` called without the parameters. What is missing is
the documented behaviour (a warning) for distributions that cannot be called without parameters. -/
theorem C151_partial {r : Reso} {d : Dist} {ps : List ℝ} {p : ℝ → ℝ} {Q : ℝ → Fl} (h : IsContinuousDist d ps p Q)
    {c : ℝ} (h0 : 0 ≤ c) (h1 : c < 1) :
    ∃ lo hi : ℝ, (∫ E in Iic lo, r.ics * p E) = (1 - c) / 2 * r.ics ∧ (∫ E in Ioi hi, r.ics * p E) = (1 - c) / 2 * r.ics ∧
      (∫ E in lo..hi, r.ics * p E) = c * r.ics ∧
      (0 ≤ lo → (r.assign d ps).coverageInterval c = .ok ⟨.fin lo, .fin hi, none, False⟩) ∧
      (lo < 0 → ∀ v, d.cdf [] [0] = .ok [.fin v] →
        (r.assign d ps).coverageInterval c = .ok ⟨.fin lo, .fin hi, some (.fin (100 * (1 - v))), False⟩) ∧
      (lo < 0 → ∀ e, d.cdf [] [0] = .error e → (r.assign d ps).coverageInterval c = .error e) := by
  obtain ⟨X, hX⟩ := h.exists_quantile
  obtain ⟨a1, a2⟩ := hX (0.5 * (1 - c)) (by linarith) (by linarith)
  obtain ⟨b1, b2⟩ := hX (0.5 * (1 + c)) (by linarith) (by linarith)
  have hp := h.ppf [0.5 * (1 - c), 0.5 * (1 + c)] (by
    intro q hq
    simp only [List.mem_cons, List.not_mem_nil, or_false] at hq
    rcases hq with rfl | rfl <;> constructor <;> linarith)
  simp only [List.map_cons, List.map_nil, a1, b1] at hp
  refine ⟨X (0.5 * (1 - c)), X (0.5 * (1 + c)), ?_, ?_, ?_, fun hn => ?_, fun hn v hv => ?_, fun hn e he => ?_⟩
  · rw [integral_const_mul, a2]; ring
  · rw [integral_const_mul, h.tail, b2]; ring
  · rw [intervalIntegral.integral_const_mul, h.sub, a2, b2]; ring
  · simp [Reso.coverageInterval, Reso.assign, hp, bind, Except.bind, Fl.isNeg, not_lt.2 hn, Fl.isInf]
  · simp [Reso.coverageInterval, Reso.assign, hp, hv, bind, Except.bind, Fl.isNeg, hn, Fl.smul, Fl.add, Fl.isInf]
    ring
  · simp [Reso.coverageInterval, Reso.assign, hp, he, bind, Except.bind, Fl.isNeg, hn]

/-- a location-scale family of scipy with a continuous positive density meets the contract -/
theorem isContinuousDist_scipy {pdf cdf ppf : ℝ → ℝ → ℝ → ℝ} {lo hi : ℝ → ℝ → Fl} {l s : ℝ} (hs : 0 < s)
    (hg : GoodCDF (cdf l s) (pdf l s)) (hi' : ∀ q, 0 < q → q < 1 → cdf l s (ppf l s q) = q) :
    IsContinuousDist (scipyDist pdf cdf ppf lo hi) [l, s] (pdf l s)
      (fun q => ppfAt (lo l s) (hi l s) (ppf l s) (.fin q)) where
  nonneg E := (hg.pos E).le
  integrable := hg.integrable
  total := hg.integral
  pdf E := by simp [scipyDist, locScale, bind, Except.bind, hs]
  cdf xs := by simp [scipyDist, locScale, bind, Except.bind, hs, hg.integral_Iic]
  ppf qs _ := by simp [scipyDist, locScale, bind, Except.bind, hs, Function.comp_def]
  inv q h0 h1 := ⟨ppf l s q, by simp [ppfAt, h0.ne', h1.ne, h0, h1], by rw [hg.integral_Iic, hi' q h0 h1]⟩

/-- `scipy.stats.t`, Student's distribution: the first parameter is the number of degrees of freedom, without which
its methods raise a `TypeError`. Only one degree of freedom is needed here, where it is the Cauchy distribution; other
numbers are outside this example (`runtimeError`). -/
noncomputable def studentDist : Dist where
  pdf
    | [], _ => .error .typeError
    | df :: ps, x => open Classical in if df = 1 then cauchyDist.pdf ps x else .error .runtimeError
  cdf
    | [], _ => .error .typeError
    | df :: ps, xs => open Classical in if df = 1 then cauchyDist.cdf ps xs else .error .runtimeError
  ppf
    | [], _ => .error .typeError
    | df :: ps, qs => open Classical in if df = 1 then cauchyDist.ppf ps qs else .error .runtimeError

theorem student_isContinuousDist (l : ℝ) {s : ℝ} (hs : 0 < s) :
    IsContinuousDist studentDist [1, l, s] (cauchyPdf l s) (fun q => ppfAt .ninf .pinf (cauchyPpf l s) (.fin q)) := by
  have h := isContinuousDist_scipy (lo := fun _ _ => .ninf) (hi := fun _ _ => .pinf) hs (cauchy_good l hs)
    (fun q h0 h1 => cauchyPpf_spec l hs h0 h1)
  exact ⟨h.nonneg, h.integrable, h.total, fun E => by simpa [studentDist, cauchyDist] using h.pdf E,
    fun xs => by simpa [studentDist, cauchyDist] using h.cdf xs, fun qs hq => by simpa [studentDist, cauchyDist] using h.ppf qs hq, h.inv⟩

/-- C151 is false for coverage intervals: with Student's distribution every coverage beyond some number below 1 raises
a `TypeError`, wherever the resonance is and however narrow it is. -/
theorem C151_refuted (r : Reso) (l : ℝ) {s : ℝ} (hs : 0 < s) :
    (∃ p Q, IsContinuousDist studentDist [1, l, s] p Q) ∧ ∃ c0 < 1, 0 ≤ c0 ∧ ∀ c, c0 < c → c < 1 →
      (r.assign studentDist [1, l, s]).coverageInterval c = .error .typeError := by
  have h := student_isContinuousDist l hs
  refine ⟨⟨_, _, h⟩, ?_⟩
  have hg := cauchy_good l hs
  have hF0 := hg.gt_zero 0
  refine ⟨max 0 (1 - 2 * cauchyCdf l s 0), max_lt one_pos (by linarith), le_max_left _ _, fun c hc hc1 => ?_⟩
  have hc0 : 0 < c := (le_max_left _ _).trans_lt hc
  have hc2 : 1 - 2 * cauchyCdf l s 0 < c := (le_max_right _ _).trans_lt hc
  have hlo : cauchyPpf l s (0.5 * (1 - c)) < 0 := by
    rw [← hg.strictMono.lt_iff_lt, cauchyPpf_spec l hs (by linarith) (by linarith)]
    linarith
  have hp : studentDist.ppf [1, l, s] [.fin (0.5 * (1 - c)), .fin (0.5 * (1 + c))] =
      .ok (some [.fin (cauchyPpf l s (0.5 * (1 - c))), .fin (cauchyPpf l s (0.5 * (1 + c)))]) := by
    have := h.ppf [0.5 * (1 - c), 0.5 * (1 + c)] (by
      intro q hq
      simp only [List.mem_cons, List.not_mem_nil, or_false] at hq
      rcases hq with rfl | rfl <;> constructor <;> linarith)
    have e1 : (0.5 : ℝ) * (1 - c) ≠ 0 := by linarith
    have e2 : (0.5 : ℝ) * (1 - c) ≠ 1 := by linarith
    have e3 : (0 : ℝ) < 0.5 * (1 - c) := by linarith
    have e4 : (0.5 : ℝ) * (1 - c) < 1 := by linarith
    have e5 : (0.5 : ℝ) * (1 + c) ≠ 0 := by linarith
    have e6 : (0.5 : ℝ) * (1 + c) ≠ 1 := by linarith
    have e7 : (0 : ℝ) < 0.5 * (1 + c) := by linarith
    have e8 : (0.5 : ℝ) * (1 + c) < 1 := by linarith
    rw [List.map_cons, List.map_cons, List.map_nil] at this
    rw [this]
    simp only [List.map_cons, List.map_nil, ppfAt, if_neg e1, if_neg e2, if_pos (And.intro e3 e4), if_neg e5, if_neg e6,
      if_pos (And.intro e7 e8)]
  have hcd : studentDist.cdf [] [0] = .error .typeError := rfl
  simp [Reso.coverageInterval, Reso.assign, hp, hcd, bind, Except.bind, Fl.isNeg, hlo]

/-- a distribution that lives on a bounded range of positive energies is included: the box between 1 and 2 -/
theorem box_isContinuousDist (l : ℝ) {s : ℝ} (hs : 0 < s) :
    IsContinuousDist uniformDist [l, s] (uniformPdf l s)
      (fun q => ppfAt (.fin l) (.fin (l + s)) (fun q => l + s * q) (.fin q)) := by
  have hp : uniformPdf l s = (Icc l (l + s)).indicator fun _ => 1 / s := by
    funext x; simp [uniformPdf, indicator, mem_Icc]
  have hint : IntegrableOn (fun _ : ℝ => 1 / s) (Icc l (l + s)) := integrableOn_const (by simp)
  have hIic : ∀ x, ∫ E in Iic x, uniformPdf l s E = uniformCdf l s x := by
    intro x
    have hI : Iic x ∩ Icc l (l + s) = Icc l (min x (l + s)) := by
      ext y; simp only [mem_inter_iff, mem_Iic, mem_Icc, le_min_iff]; tauto
    rw [hp, setIntegral_indicator measurableSet_Icc, hI, setIntegral_const]
    simp only [Measure.real, Real.volume_Icc, smul_eq_mul, uniformCdf]
    rw [ENNReal.toReal_ofReal', max_comm, max_mul_of_nonneg _ _ (by positivity), zero_mul]
    congr 1
    rw [← min_sub_sub_right, min_mul_of_nonneg _ _ (by positivity)]
    rw [min_comm]
    congr 1 <;> field_simp
    ring
  refine ⟨fun E => by unfold uniformPdf; split <;> positivity, ?_, ?_, ?_, ?_, ?_, ?_⟩
  · rw [hp]; exact hint.integrable_indicator measurableSet_Icc
  · rw [hp, integral_indicator measurableSet_Icc, setIntegral_const]
    simp only [Measure.real, Real.volume_Icc, smul_eq_mul]
    rw [ENNReal.toReal_ofReal (by linarith)]
    field_simp
    ring
  · intro E; simp [uniformDist, scipyDist, locScale, bind, Except.bind, hs]
  · intro xs; simp [uniformDist, scipyDist, locScale, bind, Except.bind, hs, hIic]
  · intro qs _; simp [uniformDist, scipyDist, locScale, bind, Except.bind, hs, Function.comp_def]
  · intro q h0 h1
    refine ⟨l + s * q, by simp [ppfAt, h0.ne', h1.ne, h0, h1], ?_⟩
    rw [hIic]
    unfold uniformCdf
    rw [show (l + s * q - l) / s = q by field_simp; ring, min_eq_right h1.le, max_eq_right h0.le]

example : ∃ (p : ℝ → ℝ) (Q : ℝ → Fl), IsContinuousDist uniformDist [1, 1] p Q ∧
    0 < ∫ E in (0 : ℝ)..(1.5), p E := by
  have h := box_isContinuousDist 1 one_pos
  refine ⟨_, _, h, ?_⟩
  have h1 := h.cdf [0, 1.5]
  have : uniformDist.cdf [1, 1] [0, 1.5] = .ok [.fin 0, .fin 0.5] := by
    simp [uniformDist, scipyDist, locScale, bind, Except.bind, uniformCdf]
    norm_num
  rw [this] at h1
  simp only [List.map_cons, List.map_nil, Except.ok.injEq, List.cons.injEq, Fl.fin.injEq, and_true] at h1
  rw [h.sub, ← h1.1, ← h1.2]
  norm_num

end Ries
