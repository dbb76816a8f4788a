import Verif.Lemmas.RoundedPVGrid
import Verif.Props.PhysicalRange

/-! # C188: coverage intervals and grids of equal probability of pseudo-Voigt resonances in floating point -/

open MeasureTheory

namespace Ries

variable {fl Fc pc F p : ℝ → ℝ} {u η ε : ℝ}

/-- The functions of this file and those for Breit-Wigner and Gauss resonances (C113) are the same code. -/
theorem probGridF_rounded (fl : ℝ → ℝ) (r : Reso) (a b : ℝ) (m : ℕ) :
    Reso.probGridF fl { r with dist := r.dist.rounded fl } (.lims a b) m = r.probGridR fl a b m := rfl

theorem coverageIntervalF_rounded (fl : ℝ → ℝ) (r : Reso) (c : ℝ) :
    Reso.coverageIntervalF fl { r with dist := r.dist.rounded fl } c = r.coverageIntervalR fl c := rfl

theorem FloatReso.facts {r : Reso} {w d : ℝ} (h : FloatReso r w d fl Fc pc F p u η ε) : PV.Ok w d ∧ F = (mkPV r.er w d).cdfR ∧
    (r.HasSigma fun E => r.ics * (mkPV r.er w d).pdfR E) ∧ u ≤ 1e-4 * ε ∧ η ≤ 1e-4 * ε ∧
    ∀ (mix : ℝ → Fl) (qs : List ℝ), qs ≠ [] → (∀ q ∈ qs, ε ≤ q ∧ q ≤ 1 - ε) →
    ∃ xs : List ℝ, PV.ppfArrayR fl Fc pc mix r.er qs = ⟨some (xs.map .fin), false⟩ ∧
      List.Forall₂ (fun q x => |x - r.er| ≤ (2 * Real.sqrt (Real.log 2) * d + w) / ε ∧
        |F x - q| ≤ 3.9e-8 / max w (2 * Real.sqrt (Real.log 2) * d) + η) qs xs := by
  obtain ⟨hok, hd, hp⟩ := h.shape.inv
  obtain ⟨s1, s2⟩ := float_small h.float.u0 h.float.η0 h.ε0 h.ε1 h.wide h.noise
  have hF : ∀ x, (mkPV r.er w d).cdf x = .fin (F x) := by
    intro x
    have := h.cdf x
    rw [hd, hp] at this
    simpa [PV.toDist] using this
  have hp' : ∀ x, (mkPV r.er w d).pdf x = .fin (p x) := by
    intro x
    have := h.pdf x
    rw [hd, hp] at this
    simpa [PV.toDist] using this
  refine ⟨hok, ?_, pv_sigma hok hd hp, s1, s2, fun mix qs hqs hq => ?_⟩
  · funext x
    have := hF x
    rw [PV.cdf, if_pos hok.valid] at this
    exact (Fl.fin.inj this).symm
  · exact C187_every_array r.er w d hok.w0 hok.d0 hok.ne rfl hF hp' h.ε0 h.float h.noise h.narrow h.wide mix qs hqs hq

/-- C188: the coverage interval in floating point consists of two numbers near the resonance, contains the fraction `c` of the
cross section up to the accuracy of the search, and is announced as negative exactly if its lower end is. -/
theorem C188_coverage_interval {r : Reso} {w d : ℝ} (h : FloatReso r w d fl Fc pc F p u η ε) (hI : 0 ≤ r.ics) (mix : ℝ → Fl) {c : ℝ}
    (h0 : 0 ≤ c) (hc : 1.001 * ε ≤ (1 - c) / 2) :
    ∃ (σ : ℝ → ℝ) (lo hi : ℝ) (warn : Option Fl), r.HasSigma σ ∧
      (r.computed fl Fc pc mix).coverageIntervalF fl c = .ok ⟨.fin lo, .fin hi, warn, False⟩ ∧ (warn.isSome ↔ lo < 0) ∧
      |lo - r.er| ≤ (2 * Real.sqrt (Real.log 2) * d + w) / ε ∧ |hi - r.er| ≤ (2 * Real.sqrt (Real.log 2) * d + w) / ε ∧
      |(∫ E in lo..hi, σ E) - c * ∫ E, σ E| ≤ (7.8e-8 / max w (2 * Real.sqrt (Real.log 2) * d) + 2 * η + 4 * u) * ∫ E, σ E := by
  obtain ⟨hok, rfl, hσ, s1, s2, hppf⟩ := h.facts
  have hε := h.ε0
  have hu0 := h.float.u0
  obtain ⟨q1, q2⟩ := coverage_quantiles h.float.rounding hu0 h.float.u1 h0 (by linarith)
  obtain ⟨xs, hx, hacc⟩ := hppf mix [fl (0.5 * fl (1 - c)), fl (0.5 * fl (1 + c))] (by simp) (by
    intro q hq
    simp only [List.mem_cons, List.not_mem_nil, or_false] at hq
    rw [abs_le] at q1 q2
    rcases hq with rfl | rfl
    · exact ⟨by linarith, by linarith⟩
    · exact ⟨by linarith, by linarith⟩)
  obtain ⟨lo, xs', ⟨hlo1, hlo2⟩, hacc1, rfl⟩ := List.forall₂_cons_left_iff.1 hacc
  obtain ⟨hi, xs'', ⟨hhi1, hhi2⟩, hacc2, rfl⟩ := List.forall₂_cons_left_iff.1 hacc1
  rw [List.forall₂_nil_left_iff] at hacc2
  subst hacc2
  have hval : (r.computed fl Fc pc mix).dist.ppf (r.computed fl Fc pc mix).params
      [.fin (fl (0.5 * fl (1 - c))), .fin (fl (0.5 * fl (1 + c)))] = .ok (some [.fin lo, .fin hi]) := by
    have := computed_ppf fl Fc pc mix r.er [fl (0.5 * fl (1 - c)), fl (0.5 * fl (1 + c))]
    rw [hx] at this
    exact this
  have hres : ∃ warn : Option Fl, (r.computed fl Fc pc mix).coverageIntervalF fl c = .ok ⟨.fin lo, .fin hi, warn, False⟩ ∧
      (warn.isSome ↔ lo < 0) := by
    unfold Reso.coverageIntervalF
    rw [hval]
    by_cases hneg : lo < 0
    · simp [Bind.bind, Except.bind, Fl.isNeg, hneg, Reso.computed, PV.computed, Fl.isInf]
    · simp [Bind.bind, Except.bind, Fl.isNeg, hneg, Fl.isInf]
  obtain ⟨warn, hw1, hw2⟩ := hres
  refine ⟨_, lo, hi, warn, hσ, hw1, hw2, hlo1, hhi1, ?_⟩
  rw [intervalIntegral.integral_const_mul, hok.good.intervalIntegral, integral_const_mul, hok.good.integral]
  rw [show r.ics * ((mkPV r.er w d).cdfR hi - (mkPV r.er w d).cdfR lo) - c * (r.ics * 1)
    = ((mkPV r.er w d).cdfR hi - (mkPV r.er w d).cdfR lo - c) * r.ics by ring, abs_mul, abs_of_nonneg hI, mul_one]
  refine mul_le_mul_of_nonneg_right ?_ hI
  rw [show 7.8e-8 / max w (2 * Real.sqrt (Real.log 2) * d) = 2 * (3.9e-8 / max w (2 * Real.sqrt (Real.log 2) * d)) by ring]
  rw [abs_le] at q1 q2 hlo2 hhi2 ⊢
  constructor <;> linarith

/-- a grid whose probabilities are known -/
theorem nearShares_of {F p σ : ℝ → ℝ} {I a D δ : ℝ} (hF : GoodCDF F p) (hI : 0 ≤ I) (hσ : σ = fun E => I * p E) {g : List ℝ}
    (hg : ∀ i, (h : i < g.length) → |F g[i] - (a + i * D)| ≤ δ) : NearShares σ g (D * ∫ E, σ E) (2 * δ * ∫ E, σ E) := by
  subst hσ
  intro i hi
  rw [intervalIntegral.integral_const_mul, hF.intervalIntegral, integral_const_mul, hF.integral]
  have h1 := hg i (by omega)
  have h2 := hg (i + 1) hi
  rw [show I * (F g[i + 1] - F g[i]) - D * (I * 1) = (F g[i + 1] - F g[i] - D) * I by ring, abs_mul, abs_of_nonneg hI, mul_one]
  refine mul_le_mul_of_nonneg_right ?_ hI
  push_cast at h2
  rw [abs_le] at h1 h2 ⊢
  constructor <;> linarith

/-- C188: the grid for a coverage in floating point. -/
theorem C188_coverage_grid {r : Reso} {w d : ℝ} (h : FloatReso r w d fl Fc pc F p u η ε) (hI : 0 ≤ r.ics) (mix : ℝ → Fl) {c : ℝ}
    (h0 : 0 ≤ c) (hc : 1.001 * ε ≤ (1 - c) / 2) (m : ℕ) :
    ∃ (σ : ℝ → ℝ) (g : List ℝ), r.HasSigma σ ∧ (r.computed fl Fc pc mix).probGridF fl (.cov c) m = .ok (some (g.map .fin)) ∧
      g.length = m + 2 ∧ (∀ x ∈ g, |x - r.er| ≤ (2 * Real.sqrt (Real.log 2) * d + w) / ε) ∧
      NearShares σ g (c / (m + 1) * ∫ E, σ E)
        (2 * (3.9e-8 / max w (2 * Real.sqrt (Real.log 2) * d) + η + 8 * u) * ∫ E, σ E) := by
  obtain ⟨hok, rfl, hσ, s1, s2, hppf⟩ := h.facts
  have hε := h.ε0
  have hu0 := h.float.u0
  have hm : (0 : ℝ) < m + 1 := by positivity
  obtain ⟨q1, q2⟩ := coverage_quantiles h.float.rounding hu0 h.float.u1 h0 (by linarith)
  have hval := computed_ppf fl Fc pc mix r.er (linspaceR fl (fl (0.5 * fl (1 - c))) (fl (0.5 * fl (1 + c))) m)
  have e : (r.computed fl Fc pc mix).probGridF fl (.cov c) m = (PV.computed fl Fc pc mix r.er).ppf []
    ((linspaceR fl (fl (0.5 * fl (1 - c))) (fl (0.5 * fl (1 + c))) m).map .fin) := rfl
  rw [abs_le] at q1 q2
  obtain ⟨hlen, hlin⟩ := linspaceR_near h.float.rounding hu0 h.float.u1 (l0 := fl (0.5 * fl (1 - c))) (l1 := fl (0.5 * fl (1 + c)))
    (by linarith) (by linarith) (by linarith) (by linarith) m
  generalize fl (0.5 * fl (1 - c)) = l0 at *
  generalize fl (0.5 * fl (1 + c)) = l1 at *
  have hpt : ∀ i, i < m + 2 → |l0 + i * ((l1 - l0) / (m + 1)) - ((1 - c) / 2 + i * (c / (m + 1)))| ≤ 2.01 * u := by
    intro i hi
    have ht0 : 0 ≤ (i : ℝ) / (m + 1) := by positivity
    have ht1 : (i : ℝ) / (m + 1) ≤ 1 := by
      rw [div_le_one hm]
      have : (i : ℝ) < m + 2 := by exact_mod_cast hi
      have : i ≤ m + 1 := by omega
      exact_mod_cast this
    have e : l0 + i * ((l1 - l0) / (m + 1)) - ((1 - c) / 2 + i * (c / (m + 1)))
        = (1 - (i : ℝ) / (m + 1)) * (l0 - (1 - c) / 2) + (i : ℝ) / (m + 1) * (l1 - (1 + c) / 2) := by
      field_simp
      ring
    rw [e]
    generalize (i : ℝ) / (m + 1) = t at *
    exact abs_le.2 ⟨by nlinarith, by nlinarith⟩
  have hpt2 : ∀ i, i < m + 2 → (1 - c) / 2 ≤ (1 - c) / 2 + i * (c / (m + 1)) ∧ (1 - c) / 2 + i * (c / (m + 1)) ≤ (1 + c) / 2 := by
    intro i hi
    have h1 : (i : ℝ) ≤ m + 1 := by
      have : i ≤ m + 1 := by omega
      exact_mod_cast this
    have h2 : 0 ≤ c / (m + 1) := by positivity
    have h3 : (m + 1) * (c / (m + 1)) = c := mul_div_cancel₀ _ hm.ne'
    have h4 : 0 ≤ (i : ℝ) := Nat.cast_nonneg i
    constructor <;> nlinarith
  have hne : linspaceR fl l0 l1 m ≠ [] := by
    intro h
    rw [h] at hlen
    simp at hlen
  obtain ⟨xs, hx, hacc⟩ := hppf mix (linspaceR fl l0 l1 m) hne (by
    intro q hq
    obtain ⟨i, hi, rfl⟩ := List.getElem_of_mem hq
    have h1 := abs_le.1 (hlin i hi)
    have h2 := abs_le.1 (hpt i (by omega))
    have h3 := hpt2 i (by omega)
    exact ⟨by linarith, by linarith⟩)
  rw [List.forall₂_iff_get] at hacc
  obtain ⟨hl, hacc⟩ := hacc
  refine ⟨_, xs, hσ, by rw [e, hval, hx], by omega, ?_, ?_⟩
  · intro x hx'
    obtain ⟨i, hi, rfl⟩ := List.getElem_of_mem hx'
    exact (hacc i (by omega) hi).1
  · refine nearShares_of (a := (1 - c) / 2) hok.good hI rfl fun i hi => ?_
    have h1 := hlin i (by omega)
    have h2 := hpt i (by omega)
    have h3 := (hacc i (by omega) hi).2
    simp only [List.get_eq_getElem] at h3
    rw [abs_le] at h1 h2 h3 ⊢
    constructor <;> linarith

/-- C188: the grid between two limits in floating point begins and ends with the limits. -/
theorem C188_limits_grid {r : Reso} {w d : ℝ} (h : FloatReso r w d fl Fc pc F p u η ε) (hI : 0 ≤ r.ics) (mix : ℝ → Fl) {a b : ℝ}
    (ha : 1.001 * ε ≤ F a) (ha' : F a ≤ 1 - 1.001 * ε) (hb : 1.001 * ε ≤ F b) (hb' : F b ≤ 1 - 1.001 * ε) (m : ℕ) :
    ∃ (σ : ℝ → ℝ) (g : List ℝ), r.HasSigma σ ∧ (r.computed fl Fc pc mix).probGridF fl (.lims a b) m = .ok (some (g.map .fin)) ∧
      g.length = m + 2 ∧ g.head? = some a ∧ g.getLast? = some b ∧
      NearShares σ g ((F b - F a) / (m + 1) * ∫ E, σ E)
        (2 * (3.9e-8 / max w (2 * Real.sqrt (Real.log 2) * d) + 2 * η + 5 * u) * ∫ E, σ E) := by
  have hcdf := h.float.cdf
  obtain ⟨hok, rfl, hσ, s1, s2, hppf⟩ := h.facts
  have hε := h.ε0
  have hu0 := h.float.u0
  have hη0 := h.float.η0
  have hm : (0 : ℝ) < m + 1 := by positivity
  have q1 := abs_le.1 (hcdf a)
  have q2 := abs_le.1 (hcdf b)
  have hval := computed_ppf fl Fc pc mix r.er (linspaceR fl (Fc a) (Fc b) m)
  obtain ⟨hlen, hlin⟩ := linspaceR_near h.float.rounding hu0 h.float.u1 (l0 := Fc a) (l1 := Fc b)
    (by linarith) (by linarith) (by linarith) (by linarith) m
  have e : (r.computed fl Fc pc mix).probGridF fl (.lims a b) m =
      ((PV.computed fl Fc pc mix r.er).ppf [] ((linspaceR fl (Fc a) (Fc b) m).map .fin) >>= fun v => match v with
        | none => .error .typeError
        | some g => (Reso.setEnds (.fin a) (.fin b) g).map some) := by
    simp only [Reso.probGridF, Reso.computed, PV.computed, Bind.bind, Except.bind, finList_map, if_true, List.map_cons, List.map_nil]
    cases (PV.ppfArrayR fl Fc pc mix r.er (linspaceR fl (Fc a) (Fc b) m)).values <;> rfl
  generalize Fc a = l0 at *
  generalize Fc b = l1 at *
  set Fa := (mkPV r.er w d).cdfR a with hFa
  set Fb := (mkPV r.er w d).cdfR b with hFb
  have hpt : ∀ i, i < m + 2 → |l0 + i * ((l1 - l0) / (m + 1)) - (Fa + i * ((Fb - Fa) / (m + 1)))| ≤ η ∧
      1.001 * ε ≤ Fa + i * ((Fb - Fa) / (m + 1)) ∧ Fa + i * ((Fb - Fa) / (m + 1)) ≤ 1 - 1.001 * ε := by
    intro i hi
    have ht0 : 0 ≤ (i : ℝ) / (m + 1) := by positivity
    have ht1 : (i : ℝ) / (m + 1) ≤ 1 := by
      rw [div_le_one hm]
      have : i ≤ m + 1 := by omega
      exact_mod_cast this
    have e1 : Fa + i * ((Fb - Fa) / (m + 1)) = (1 - (i : ℝ) / (m + 1)) * Fa + (i : ℝ) / (m + 1) * Fb := by
      field_simp
      ring
    have e2 : l0 + i * ((l1 - l0) / (m + 1)) = (1 - (i : ℝ) / (m + 1)) * l0 + (i : ℝ) / (m + 1) * l1 := by
      field_simp
      ring
    rw [e1, e2]
    generalize (i : ℝ) / (m + 1) = t at *
    exact ⟨abs_le.2 ⟨by nlinarith, by nlinarith⟩, by nlinarith, by nlinarith⟩
  have hne : linspaceR fl l0 l1 m ≠ [] := by
    intro h
    rw [h] at hlen
    simp at hlen
  obtain ⟨xs, hx, hacc⟩ := hppf mix (linspaceR fl l0 l1 m) hne (by
    intro q hq
    obtain ⟨i, hi, rfl⟩ := List.getElem_of_mem hq
    have h1 := abs_le.1 (hlin i hi)
    obtain ⟨h2, h3, h4⟩ := hpt i (by omega)
    rw [abs_le] at h2
    exact ⟨by linarith, by linarith⟩)
  rw [List.forall₂_iff_get] at hacc
  obtain ⟨hl, hacc⟩ := hacc
  obtain ⟨x0, mid, x1, rfl⟩ : ∃ x0 mid x1, xs = x0 :: (mid ++ [x1]) := by
    have : xs.length = m + 2 := by omega
    match xs, this with
    | x0 :: x :: t, _ => exact ⟨x0, (x :: t).dropLast, (x :: t).getLast (by simp), by rw [List.dropLast_append_getLast]⟩
  have hmid : mid.length = m := by
    rw [hlen] at hl
    simp at hl
    omega
  have hll : ∀ y z : ℝ, (y :: (mid ++ [z])).length = m + 2 := by
    intro y z
    simp [hmid]
  refine ⟨_, a :: (mid ++ [b]), hσ, ?_, hll a b, rfl, by rw [← List.cons_append, List.getLast?_concat], ?_⟩
  · rw [e, hval, hx]
    simp only [Bind.bind, Except.bind, List.map_cons, List.map_append, List.map_nil]
    rw [setEnds_mid]
    rfl
  · have hpos : 0 < 3.9e-8 / max w (2 * Real.sqrt (Real.log 2) * d) := by
      refine div_pos (by norm_num) ?_
      rcases hok.ne with h | h
      · exact lt_max_of_lt_left h
      · refine lt_max_of_lt_right ?_
        have := sqrt_log_two_pos
        positivity
    refine nearShares_of (a := Fa) hok.good hI rfl fun i hi => ?_
    have hi' : i < m + 2 := by rwa [hll] at hi
    rcases Nat.eq_zero_or_pos i with rfl | hi0
    · simp only [List.getElem_cons_zero, Nat.cast_zero, zero_mul, add_zero, ← hFa, sub_self, abs_zero]
      positivity
    · rcases Nat.lt_or_ge i (m + 1) with hlt | hge
      · have h1 := hlin i (by omega)
        have h2 := (hpt i hi').1
        have h3 := (hacc i (by omega) (by rw [hll]; exact hi')).2
        obtain ⟨j, rfl⟩ : ∃ j, i = j + 1 := ⟨i - 1, by omega⟩
        have e3 : (x0 :: (mid ++ [x1]))[j + 1]'(by rw [hll]; exact hi') = (a :: (mid ++ [b]))[j + 1]'hi := by
          simp only [List.getElem_cons_succ]
          rw [List.getElem_append_left (by omega), List.getElem_append_left (by omega)]
        simp only [List.get_eq_getElem] at h3
        rw [e3] at h3
        rw [abs_le] at h1 h2 h3 ⊢
        constructor <;> linarith
      · obtain rfl : i = m + 1 := by omega
        have e3 : (a :: (mid ++ [b]))[m + 1]'hi = b := by
          simp only [List.getElem_cons_succ]
          rw [List.getElem_append_right (by omega)]
          simp
        rw [e3]
        push_cast
        rw [mul_div_cancel₀ _ hm.ne', show (mkPV r.er w d).cdfR b - (Fa + (Fb - Fa)) = 0 by rw [hFb]; ring, abs_zero]
        positivity

/-- Double precision with correctly rounded functions: a level of 20 meV at 2 MeV, room temperature, meets the hypotheses for quantiles
between 0.02 and 0.98; the coverage 0.95 is one of those covered, and so are the limits with 5 % of the cross section outside on either
side. -/
theorem exThin_pseudoVoigt : ∃ (r : Reso) (d : ℝ) (F p : ℝ → ℝ) (a b : ℝ), FloatReso r 2e-8 d KN.rn (fun x => KN.rn (F x)) (fun x => KN.rn (p x)) F p (1 / 2 ^ 53) (1 / 2 ^ 53) 0.02 ∧
    0 < r.ics ∧ (1.001 : ℝ) * 0.02 ≤ (1 - 0.95) / 2 ∧ F a = 0.05 ∧ F b = 0.95 ∧ 4e-6 ≤ d ∧ mkPseudoVoigt exConst exGround exThin 11 293 none = .ok r ∧
    d = dopplerWidth exConst 11 293 2 ∧ r.er = 2 := by
  obtain ⟨r, hr, he, hI⟩ := exThin_resonance
  obtain ⟨l1, l2⟩ := exThin_doppler
  have h11 : (11 : ℝ) ≠ 0 := by norm_num
  have hmk : mkPseudoVoigt exConst exGround exThin 11 293 none =
      .ok { r with dist := (mkPV r.er 2e-8 (dopplerWidth exConst 11 293 2)).toDist, params := [] } := by
    simp [mkPseudoVoigt, hr, exThin_width, getDopplerWidth_ok exConst h11, Bind.bind, Except.bind, he]
  have hP : IsPseudoVoigtOf { r with dist := (mkPV r.er 2e-8 (dopplerWidth exConst 11 293 2)).toDist, params := [] } 2e-8
      (dopplerWidth exConst 11 293 2) := by
    refine ⟨exConst, exGround, exThin, 11, 293, none, hmk, by norm_num, by norm_num,
      by norm_num [exGround, exThin, groundState, state], exThin_width, ?_, by norm_num, Or.inl (by norm_num)⟩
    simp [getDopplerWidth_ok exConst h11, he]
  obtain ⟨hok, -, -⟩ := hP.inv
  generalize hdd : dopplerWidth exConst 11 293 2 = d at *
  have hF := hok.good (er := r.er)
  obtain ⟨a, ha⟩ := hF.surj (q := 0.05) (by norm_num) (by norm_num)
  obtain ⟨b, hb⟩ := hF.surj (q := 0.95) (by norm_num) (by norm_num)
  have hs1 : Real.sqrt (Real.log 2) ≤ 1 := by
    rw [Real.sqrt_le_one]
    linarith [Real.log_two_lt_d9]
  have hs0 : 0.5 ≤ Real.sqrt (Real.log 2) := by
    rw [Real.le_sqrt (by norm_num) (by linarith [Real.log_two_gt_d9])]
    norm_num
    linarith [Real.log_two_gt_d9]
  have hG1 : 2 * Real.sqrt (Real.log 2) * d + 2e-8 ≤ 1.1e-5 := by nlinarith
  have hG0 : 1e-7 ≤ 2 * Real.sqrt (Real.log 2) * d + 2e-8 := by nlinarith
  have hrel : ∀ y : ℝ, 0 < y → |KN.rn y - y| ≤ 1 / 2 ^ 53 * y := by
    intro y hy
    have := KN.rn_rounding y
    rwa [abs_of_pos hy] at this
  refine ⟨_, d, (mkPV r.er 2e-8 d).cdfR, (mkPV r.er 2e-8 d).pdfR, a, b, ⟨hP, fun x => ?_, fun x => ?_, by norm_num, by norm_num,
    ⟨KN.rn_rounding, by norm_num, by norm_num, by norm_num, by norm_num, fun x => ?_, fun x => ?_, fun x _ => hrel _ (hF.pos x)⟩,
    ?_, hG0, ?_⟩, hI, by norm_num, ha, hb, l1, hmk, rfl, he⟩
  · simp [PV.toDist, PV.cdf, hok.valid]
  · simp [PV.toDist, PV.pdf, hok.valid]
  · refine (hrel _ (hF.gt_zero x)).trans ?_
    have := hF.lt_one x
    norm_num
    linarith
  · exact (hrel _ (hF.pos x)).trans (mul_le_mul_of_nonneg_left (hok.peaked.le_peak x) (by norm_num))
  · simp only [he]
    generalize 2 * Real.sqrt (Real.log 2) * d + 2e-8 = Γ at *
    rw [abs_of_pos (by norm_num)]
    norm_num at *
    linarith
  · norm_num at *
    linarith

theorem exThin_float : ∃ (r : Reso) (d : ℝ) (F p : ℝ → ℝ) (a b : ℝ), FloatReso r 2e-8 d KN.rn (fun x => KN.rn (F x)) (fun x => KN.rn (p x)) F p (1 / 2 ^ 53) (1 / 2 ^ 53) 0.02 ∧
    0 < r.ics ∧ (1.001 : ℝ) * 0.02 ≤ (1 - 0.95) / 2 ∧ F a = 0.05 ∧ F b = 0.95 ∧ 4e-6 ≤ d := by
  obtain ⟨r, d, F, p, a, b, h1, h2, h3, h4, h5, h6, -⟩ := exThin_pseudoVoigt
  exact ⟨r, d, F, p, a, b, h1, h2, h3, h4, h5, h6⟩

end Ries
