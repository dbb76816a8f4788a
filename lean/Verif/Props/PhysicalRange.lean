import Verif.Props.Windows

/-! # C17 and C20 for pseudo-Voigt and Voigt resonances -/

open MeasureTheory Set

namespace Ries

/-- a symmetric density: what is missing below zero is what lies above twice the centre -/
theorem symmetric_tail {v : ℝ → ℝ} {c x : ℝ} (hint : Integrable v) (h1 : ∫ E, v E = 1) (hs : ∀ E, v (2 * c - E) = v E)
    (hw : 1 - x ≤ ∫ E in (c - c)..(c + c), v E) :
    1 - x / 2 ≤ ∫ E in Ioi 0, v E ∧ (∫ E in Ioi 0, v E) + ∫ E in Ioi (2 * c), v E = 1 := by
  have hrefl : ∫ E in Iic 0, v E = ∫ E in Ioi (2 * c), v E := by
    rw [← integral_indicator measurableSet_Iic, ← integral_Ici_eq_integral_Ioi, ← integral_indicator measurableSet_Ici,
      ← integral_sub_left_eq_self _ volume (2 * c)]
    refine integral_congr_ae (Filter.Eventually.of_forall fun E => ?_)
    show (Iic 0).indicator v (2 * c - E) = (Ici (2 * c)).indicator v E
    by_cases hE : 2 * c ≤ E
    · rw [indicator_of_mem (show 2 * c - E ∈ Iic 0 by simpa using hE), indicator_of_mem (show E ∈ Ici (2 * c) from hE), hs]
    · rw [indicator_of_notMem (show 2 * c - E ∉ Iic 0 by simpa using hE), indicator_of_notMem (show E ∉ Ici (2 * c) from hE)]
  have hsplit : (∫ E in Iic 0, v E) + ∫ E in Ioi 0, v E = 1 := by
    rw [← h1]; exact intervalIntegral.integral_Iic_add_Ioi hint.integrableOn hint.integrableOn
  have hmid : (∫ E in (0 : ℝ)..(2 * c), v E) + ∫ E in Ioi (2 * c), v E = ∫ E in Ioi 0, v E :=
    intervalIntegral.integral_interval_add_Ioi hint.integrableOn hint.integrableOn
  rw [sub_self, ← two_mul] at hw
  constructor <;> linarith

/-- the part of a positive density above zero is not everything -/
theorem positive_tail {v : ℝ → ℝ} (hint : Integrable v) (h1 : ∫ E, v E = 1) (hpos : ∀ E, 0 < v E) : ∫ E in Ioi 0, v E < 1 := by
  have hsplit : (∫ E in Iic 0, v E) + ∫ E in Ioi 0, v E = 1 := by
    rw [← h1]; exact intervalIntegral.integral_Iic_add_Ioi hint.integrableOn hint.integrableOn
  have : 0 < ∫ E in Iic 0, v E := by
    rw [integral_pos_iff_support_of_nonneg (fun E => (hpos E).le) hint.integrableOn]
    have : Function.support v = univ := by
      ext E; simp [(hpos E).ne']
    rw [this]
    simp
  linarith

/-- C20 is false for pseudo-Voigt resonances, too: the integral over the physical energies is strictly smaller than the integrated
cross section. What holds for a positive resonance energy: what is missing is what lies above twice the resonance energy, at most half
of `0.69 w / (π E_r) + 2 ^ (-(2 E_r / S)²)`, where `S` is the sum of the width `w` and the full width at half maximum of the Doppler
broadening. -/
theorem C20_pseudo_voigt_partial {r : Reso} {w d : ℝ} (h : IsPseudoVoigtOf r w d) (hI : 0 < r.ics) (hE : 0 < r.er) {σ : ℝ → ℝ}
    (hσ : r.HasSigma σ) :
    (1 - (0.69 * w / (Real.pi * r.er) + (2 : ℝ) ^ (-(2 * r.er / (2 * Real.sqrt (Real.log 2) * d + w)) ^ 2)) / 2) * r.ics
      ≤ ∫ E in Ioi 0, σ E ∧ ∫ E in Ioi 0, σ E < r.ics ∧ (∫ E in Ioi 0, σ E) + ∫ E in Ioi (2 * r.er), σ E = r.ics := by
  obtain ⟨hok, hd', hp'⟩ := h.inv
  obtain rfl := sigma_unique hσ (pv_sigma hok hd' hp')
  have hgood := hok.good (er := r.er)
  have hwin := pv_window r.er hok hE
  rw [← hgood.intervalIntegral, sub_sub] at hwin
  obtain ⟨t1, t2⟩ := symmetric_tail hgood.integrable hgood.integral (fun E => by
    have := (hok.peaked (er := r.er)).symm (r.er - E)
    rw [show r.er + (r.er - E) = 2 * r.er - E by ring, show r.er - (r.er - E) = E by ring] at this
    exact this) hwin
  have t3 := positive_tail hgood.integrable hgood.integral hgood.pos
  rw [integral_const_mul, integral_const_mul, Real.rpow_def_of_pos two_pos, mul_neg, ← neg_mul]
  refine ⟨?_, by nlinarith, by rw [← mul_add, t2, mul_one]⟩
  rw [mul_comm]
  exact mul_le_mul_of_nonneg_left t1 hI.le

/-- C20 for Voigt resonances: strictly smaller; missing is what lies above twice the resonance energy, at most half of
`2 w / (π E_r) + exp (-(E_r / d)² / 4)`. -/
theorem C20_voigt_partial {r : Reso} {w d : ℝ} (h : IsVoigtOf r w d) (hw : 0 < w) (hd : 0 < d) (hI : 0 < r.ics) (hE : 0 < r.er)
    {σ : ℝ → ℝ} (hσ : r.HasSigma σ) :
    (1 - (2 * w / (Real.pi * r.er) + Real.exp (-(r.er / d) ^ 2 / 4)) / 2) * r.ics ≤ ∫ E in Ioi 0, σ E ∧
      ∫ E in Ioi 0, σ E < r.ics ∧ (∫ E in Ioi 0, σ E) + ∫ E in Ioi (2 * r.er), σ E = r.ics := by
  obtain rfl := sigma_unique hσ (h.sigma hw hd)
  have hs : 0 < d / Real.sqrt 2 := by positivity
  have hg : 0 < w / 2 := by linarith
  have hint := voigt_integrable r.er hs hg
  have h1 := voigt_integral r.er hs hg
  have hwin := voigt_window r.er hs hg hE
  have e1 : 4 * (w / 2) / (Real.pi * r.er) = 2 * w / (Real.pi * r.er) := by ring
  have e2 : -(r.er / (d / Real.sqrt 2)) ^ 2 / 8 = -(r.er / d) ^ 2 / 4 := by
    have s2 : Real.sqrt 2 ^ 2 = 2 := Real.sq_sqrt (by norm_num)
    rw [div_div_eq_mul_div, mul_div_right_comm, mul_pow, s2]
    ring
  rw [e1, e2, sub_sub] at hwin
  obtain ⟨t1, t2⟩ := symmetric_tail hint h1 (fun E => by
    have := voigt_symm r.er (d / Real.sqrt 2) (w / 2) (r.er - E)
    rw [show r.er + (r.er - E) = 2 * r.er - E by ring, show r.er - (r.er - E) = E by ring] at this
    exact this) hwin
  have t3 := positive_tail hint h1 (fun E => voigt_pos r.er hs hg E)
  rw [integral_const_mul, integral_const_mul]
  refine ⟨?_, by nlinarith, by rw [← mul_add, t2, mul_one]⟩
  rw [mul_comm]
  exact mul_le_mul_of_nonneg_left t1 hI.le

/-- A level of 20 meV at 2 MeV, room temperature, meets the hypotheses. -/
example : ∃ v p d, IsVoigtOf v 2e-8 d ∧ IsPseudoVoigtOf p 2e-8 d ∧ 0 < d ∧ 0 < v.ics ∧ 0 < p.ics ∧ 0 < v.er ∧ 0 < p.er := by
  obtain ⟨r, hr, he, hI⟩ := exThin_resonance
  obtain ⟨l1, l2⟩ := exThin_doppler
  have hd : 0 < dopplerWidth exConst 11 293 2 := by linarith
  have h11 : (11 : ℝ) ≠ 0 := by norm_num
  refine ⟨{ r with dist := (mkPV r.er 2e-8 (dopplerWidth exConst 11 293 2)).toSemiDist, params := [] },
    { r with dist := (mkPV r.er 2e-8 (dopplerWidth exConst 11 293 2)).toDist, params := [] }, dopplerWidth exConst 11 293 2,
    ?_, ?_, hd, hI, hI, by simp only [he]; norm_num, by simp only [he]; norm_num⟩
  · refine ⟨exConst, exGround, exThin, 11, 293, none, ?_, by norm_num, by norm_num,
      by norm_num [exGround, exThin, groundState, state], exThin_width, ?_, by norm_num, Or.inl (by norm_num)⟩
    · simp [mkVoigt, mkPseudoVoigt, hr, exThin_width, getDopplerWidth_ok exConst h11, Bind.bind, Except.bind, he]
    · simp [getDopplerWidth_ok exConst h11, he]
  · refine ⟨exConst, exGround, exThin, 11, 293, none, ?_, by norm_num, by norm_num,
      by norm_num [exGround, exThin, groundState, state], exThin_width, ?_, by norm_num, Or.inl (by norm_num)⟩
    · simp [mkPseudoVoigt, hr, exThin_width, getDopplerWidth_ok exConst h11, Bind.bind, Except.bind, he]
    · simp [getDopplerWidth_ok exConst h11, he]

/-- C17 for pseudo-Voigt resonances: the lower limit for the coverage `c` is negative, and announced, as soon as more than the
fraction `(1 - c) / 2` of the cross section (plus the accuracy of the search for quantiles) lies at negative energies, and it is not
negative if at most that fraction lies there. -/
theorem C17_pseudo_voigt {r : Reso} {w d : ℝ} (h : IsPseudoVoigtOf r w d) (hI : 0 < r.ics) {σ : ℝ → ℝ} (hσ : r.HasSigma σ)
    {c : ℝ} (h0 : 0 ≤ c) (h1 : c < 1) (hG : 2 * Real.sqrt (Real.log 2) * d + w ≤ 2.5e22 * ((1 - c) / 2) ^ 4) :
    ∃ ci lo, r.coverageInterval c = .ok ci ∧ ci.lo = .fin lo ∧
      (((1 - c) / 2 + 1.9e-8 / max w (2 * Real.sqrt (Real.log 2) * d)) * r.ics < ∫ E in Iic 0, σ E → lo < 0 ∧ ci.warnNegative.isSome) ∧
      (∫ E in Iic 0, σ E ≤ (1 - c) / 2 * r.ics → 0 ≤ lo ∧ ci.warnNegative = none) := by
  obtain ⟨hok, hd, hp⟩ := h.inv
  obtain rfl := sigma_unique hσ (pv_sigma hok hd hp)
  obtain ⟨ci, lo, hi, e1, e2, e3, e4, e5, hcase⟩ := pv_coverage hok (by rw [hd]) (by rw [hd]) hp h0 (by linarith)
  have hgood := hok.good (er := r.er)
  have hwarn := (C17_partial r c ci e1).1
  rw [e2] at hwarn
  refine ⟨ci, lo, e1, e2, ?_⟩
  rw [integral_const_mul, hgood.integral_Iic]
  have hb : (1 - c) / 2 ≤ (mkPV r.er w d).cdfR lo ∧
      (mkPV r.er w d).cdfR lo ≤ (1 - c) / 2 + 1.9e-8 / max w (2 * Real.sqrt (Real.log 2) * d) := by
    rcases hcase with ⟨q1, q2⟩ | ⟨hw, -⟩
    · have b1 := q1.2.2 (by linarith)
      have a1 := abs_le.1 q1.1
      have el := hok.error_le (er := r.er)
      exact ⟨b1.2, by linarith⟩
    · exfalso
      obtain ⟨xs, hx⟩ := hok.ppfArray_central (er := r.er) (ε := (1 - c) / 2) (by linarith) (hok.gamma_le.trans hG)
        (qs := [(1 - c) / 2, (1 + c) / 2]) (by simp) (by
        intro q hq
        simp only [List.mem_cons, List.not_mem_nil, or_false] at hq
        rcases hq with rfl | rfl <;> constructor <;> linarith)
      rw [hx] at hw
      simp at hw
  constructor
  · intro hlt
    have hlo : lo < 0 := by
      rw [← hgood.strictMono.lt_iff_lt]
      rw [mul_comm, mul_lt_mul_iff_right₀ hI] at hlt
      linarith
    exact ⟨hlo, hwarn.2 hlo⟩
  · intro hle
    have hlo : 0 ≤ lo := by
      rw [← hgood.strictMono.le_iff_le]
      rw [mul_comm, mul_le_mul_iff_left₀ hI] at hle
      linarith
    refine ⟨hlo, ?_⟩
    cases hn : ci.warnNegative with
    | none => rfl
    | some v =>
      rw [hn] at hwarn
      exact absurd (hwarn.1 rfl) (not_lt.2 hlo)

/-- The hypotheses are met by a level of 20 meV at room temperature, for 90 %. -/
example : ∃ (r : Reso) (w d : ℝ), IsPseudoVoigtOf r w d ∧ 0 < r.ics ∧
    2 * Real.sqrt (Real.log 2) * d + w ≤ 2.5e22 * ((1 - 0.9) / 2) ^ 4 := by
  obtain ⟨r, hr, he, hI⟩ := exThin_resonance
  obtain ⟨l1, l2⟩ := exThin_doppler
  have h11 : (11 : ℝ) ≠ 0 := by norm_num
  refine ⟨{ r with dist := (mkPV r.er 2e-8 (dopplerWidth exConst 11 293 2)).toDist, params := [] }, 2e-8, dopplerWidth exConst 11 293 2,
    ⟨exConst, exGround, exThin, 11, 293, none, ?_, by norm_num, by norm_num,
      by norm_num [exGround, exThin, groundState, state], exThin_width, ?_, by norm_num, Or.inl (by norm_num)⟩, hI, ?_⟩
  · simp [mkPseudoVoigt, hr, exThin_width, getDopplerWidth_ok exConst h11, Bind.bind, Except.bind, he]
  · simp [getDopplerWidth_ok exConst h11, he]
  · have hs1 : Real.sqrt (Real.log 2) ≤ 1 := by
      rw [Real.sqrt_le_one]
      linarith [Real.log_two_lt_d9]
    have : Real.sqrt (Real.log 2) * dopplerWidth exConst 11 293 2 ≤ 1 * 1 :=
      mul_le_mul hs1 (by linarith) (by linarith) (by norm_num)
    norm_num at this ⊢
    linarith

end Ries
