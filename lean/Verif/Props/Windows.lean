import Verif.Lemmas.Tails
import Verif.Props.VoigtCoverage
import Verif.Props.QuadReso

/-! # Property C186: how much of a resonance lies between limits -/

open MeasureTheory Set

namespace Ries

/-- the integral of a scaled density between limits that enclose the interval `er ± L`, from the distribution function -/
theorem window_of_cdf {F p : ℝ → ℝ} (h : GoodCDF F p) {I er L x lo hi : ℝ} (hI : 0 ≤ I) (hlo : lo ≤ er - L) (hhi : er + L ≤ hi)
    (hx : 1 - x ≤ F (er + L) - F (er - L)) :
    (1 - x) * I ≤ ∫ E in lo..hi, I * p E ∧ ∫ E in lo..hi, I * p E ≤ I := by
  rw [intervalIntegral.integral_const_mul, h.intervalIntegral]
  have m1 := h.strictMono.monotone hlo
  have m2 := h.strictMono.monotone hhi
  have b1 := h.gt_zero lo
  have b2 := h.lt_one hi
  constructor
  · rw [mul_comm]
    exact mul_le_mul_of_nonneg_left (by linarith) hI
  · nlinarith

/-- C186 for a Breit-Wigner resonance of width `w`: limits that reach to at least the distance `L` on both sides of the resonance
energy leave out at most the fraction `w / (π L)` of the energy-integrated cross section; the exact fraction for limits at the
distance `L` is `(2 / π) arctan (w / (2 L))`. -/
theorem C186_breit_wigner {k : PhysConst} {init inter : Level} {final : Option Level} {w : ℝ} {r : Reso}
    (hr : mkBreitWigner k init inter final = .ok r) (hw : inter.width = .ok w) (hpos : 0 < w) (hI : 0 ≤ r.ics) {σ : ℝ → ℝ}
    (hσ : r.HasSigma σ) {L : ℝ} (hL : 0 < L) :
    (∀ lo hi, lo ≤ r.er - L → r.er + L ≤ hi →
      (1 - w / (Real.pi * L)) * r.ics ≤ ∫ E in lo..hi, σ E ∧ ∫ E in lo..hi, σ E ≤ r.ics) ∧
    ∫ E in (r.er - L)..(r.er + L), σ E = (1 - 2 / Real.pi * Real.arctan (w / (2 * L))) * r.ics := by
  obtain ⟨r0, w', h0, hw', rfl⟩ := mkBreitWigner_inv hr
  rw [hw] at hw'; cases hw'
  have hg : 0 < 0.5 * w := by linarith
  rw [sigma_unique hσ (analytic_cauchy rfl rfl hg).sigma]
  have hC := cauchy_good r0.er hg
  constructor
  · intro lo hi hlo hhi
    refine window_of_cdf hC hI hlo hhi ?_
    have := cauchy_window r0.er hg hL
    rwa [show 2 * (0.5 * w) = w by ring] at this
  · simp only
    rw [intervalIntegral.integral_const_mul, hC.intervalIntegral, cauchyCdf_below _ hg hL, cauchyCdf_above _ hg hL,
      show 0.5 * w / L = w / (2 * L) by rw [div_mul_eq_div_div]; ring]
    ring

/-- C186 for a Gauss resonance with the Doppler width `Δ`: the fraction left out is at most `exp (-(L / Δ)²)`. -/
theorem C186_gauss {k : PhysConst} {init inter : Level} {final : Option Level} {amu T : ℝ} {r : Reso}
    (hr : mkGauss k init inter amu T final = .ok r) (ha : 0 < amu) (hT : 0 < T) (hE : init.exc < inter.exc) (hI : 0 ≤ r.ics)
    {σ : ℝ → ℝ} (hσ : r.HasSigma σ) {L : ℝ} (hL : 0 ≤ L) {lo hi : ℝ} (hlo : lo ≤ r.er - L) (hhi : r.er + L ≤ hi) :
    (1 - Real.exp (-(L / dopplerWidth k amu T r.er) ^ 2)) * r.ics ≤ ∫ E in lo..hi, σ E ∧ ∫ E in lo..hi, σ E ≤ r.ics := by
  obtain ⟨r0, h0, -, rfl⟩ := mkGauss_inv hr
  have her := (mkResonance_inv h0).1
  have hpe : 0 < r0.er := by rw [her]; unfold noRecoil; linarith
  have hD := dopplerWidth_pos k ha hT hpe
  have hs : 0 < dopplerWidth k amu T r0.er / Real.sqrt 2 := div_pos hD (by positivity)
  rw [sigma_unique hσ (analytic_norm rfl rfl hs).sigma]
  refine window_of_cdf (norm_good r0.er hs) hI hlo hhi ?_
  have := norm_window r0.er hs hL
  have e : -(L / (dopplerWidth k amu T r0.er / Real.sqrt 2)) ^ 2 / 2 = -(L / dopplerWidth k amu T r0.er) ^ 2 := by
    have s2 : Real.sqrt 2 ^ 2 = 2 := Real.sq_sqrt (by norm_num)
    rw [div_div_eq_mul_div, mul_div_right_comm, mul_pow, s2]
    ring
  rwa [e] at this

/-- C186 for a Voigt resonance of width `w` and Doppler width `d`: the fraction left out is at most
`2 w / (π L) + exp (-(L / d)² / 4)`. -/
theorem C186_voigt {r : Reso} {w d : ℝ} (h : IsVoigtOf r w d) (hw : 0 < w) (hd : 0 < d) (hI : 0 ≤ r.ics) {σ : ℝ → ℝ}
    (hσ : r.HasSigma σ) {L : ℝ} (hL : 0 < L) {lo hi : ℝ} (hlo : lo ≤ r.er - L) (hhi : r.er + L ≤ hi) :
    (1 - 2 * w / (Real.pi * L) - Real.exp (-(L / d) ^ 2 / 4)) * r.ics ≤ ∫ E in lo..hi, σ E ∧ ∫ E in lo..hi, σ E ≤ r.ics := by
  obtain rfl := sigma_unique hσ (h.sigma hw hd)
  have hs : 0 < d / Real.sqrt 2 := by positivity
  have hg : 0 < w / 2 := by linarith
  have hpos := fun E => voigt_pos r.er hs hg E
  obtain ⟨n1, -, -⟩ := h.near hw hd hI
  have hint : Integrable (voigtDensity r.er (d / Real.sqrt 2) (w / 2)) := by
    by_contra hn
    have := integral_undef hn
    rw [voigt_integral r.er hs hg] at this
    exact one_ne_zero this
  have hle : lo ≤ hi := by linarith
  have hwin := voigt_window r.er hs hg hL
  have e1 : 4 * (w / 2) / (Real.pi * L) = 2 * w / (Real.pi * L) := by ring
  have e2 : -(L / (d / Real.sqrt 2)) ^ 2 / 8 = -(L / d) ^ 2 / 4 := by
    have s2 : Real.sqrt 2 ^ 2 = 2 := Real.sq_sqrt (by norm_num)
    rw [div_div_eq_mul_div, mul_div_right_comm, mul_pow, s2]
    ring
  rw [e1, e2] at hwin
  rw [intervalIntegral.integral_const_mul]
  have hmono : ∫ E in (r.er - L)..(r.er + L), voigtDensity r.er (d / Real.sqrt 2) (w / 2) E ≤
      ∫ E in lo..hi, voigtDensity r.er (d / Real.sqrt 2) (w / 2) E :=
    intervalIntegral.integral_mono_interval hlo (by linarith) hhi (Filter.Eventually.of_forall fun E => (hpos E).le)
      hint.intervalIntegrable
  have htop : ∫ E in lo..hi, voigtDensity r.er (d / Real.sqrt 2) (w / 2) E ≤ 1 := by
    rw [intervalIntegral.integral_of_le hle, ← voigt_integral r.er hs hg]
    exact setIntegral_le_integral hint (Filter.Eventually.of_forall fun E => (hpos E).le)
  constructor
  · rw [mul_comm]
    exact mul_le_mul_of_nonneg_left (by linarith) hI
  · nlinarith

/-- C186 for a pseudo-Voigt resonance of width `w` and Doppler width `d`: with the sum `S` of the width and the full width at half
maximum of the Doppler broadening, the fraction left out is at most `0.69 w / (π L) + 2 ^ (-(2 L / S)²)`. -/
theorem C186_pseudo_voigt {r : Reso} {w d : ℝ} (h : IsPseudoVoigtOf r w d) (hI : 0 ≤ r.ics) {σ : ℝ → ℝ} (hσ : r.HasSigma σ)
    {L : ℝ} (hL : 0 < L) {lo hi : ℝ} (hlo : lo ≤ r.er - L) (hhi : r.er + L ≤ hi) :
    (1 - 0.69 * w / (Real.pi * L) - (2 : ℝ) ^ (-(2 * L / (2 * Real.sqrt (Real.log 2) * d + w)) ^ 2)) * r.ics ≤ ∫ E in lo..hi, σ E ∧
      ∫ E in lo..hi, σ E ≤ r.ics := by
  obtain ⟨hok, hd', hp'⟩ := h.inv
  obtain rfl := sigma_unique hσ (pv_sigma hok hd' hp')
  rw [sub_sub]
  refine window_of_cdf hok.good hI hlo hhi ?_
  have := pv_window r.er hok hL
  rw [Real.rpow_def_of_pos two_pos, ← sub_sub, mul_neg, ← neg_mul]
  exact this

/-- C186 and C185 together: the partitioned quadrature of a Gauss resonance (times a factor that depends on further coordinates) on its own grid between
limits at the distance `L` or more gives the energy-integrated cross section (times the integral of that factor), up to `√(n - 1)` times the returned
error plus the fraction `exp (-(L / Δ)²)`. -/
theorem C186_quadrature {k : PhysConst} {init inter : Level} {final : Option Level} {amu T : ℝ} {r : Reso}
    (hr : mkGauss k init inter amu T final = .ok r) (ha : 0 < amu) (hT : 0 < T) (hE : init.exc < inter.exc) (hI : 0 ≤ r.ics)
    {L : ℝ} (hL : 0 < L) {lo hi : ℝ} (hlo : lo ≤ r.er - L) (hhi : r.er + L ≤ hi) (n : ℤ) (hn : 2 ≤ n) {h f : List ℝ → ℝ}
    (hf : IntegratesReso r h f) {rest : List (ℝ × ℝ)} (hh : ContArgs rest.length h) :
    ∃ g : List ℝ, r.probGrid (.lims lo hi) n = .ok (some (g.map .fin)) ∧
      ∀ nquad : NQuad, PiecesAccurate nquad f g rest → ∃ I D, quadPartition nquad f g (.list rest) = .ok (I, D) ∧
        |I - r.ics * iterIntegral h rest| ≤
          Real.sqrt (n - 1) * D + Real.exp (-(L / dopplerWidth k amu T r.er) ^ 2) * r.ics * |iterIntegral h rest| := by
  obtain ⟨g, σ, h1, h2, -, h3⟩ := C185_limits (Or.inr ⟨k, init, inter, amu, T, final, hr, ha, hT, hE⟩)
    (show lo < hi by linarith) n hn hf hh
  obtain ⟨w1, w2⟩ := C186_gauss hr ha hT hE hI h2 hL.le hlo hhi
  refine ⟨g, h1, fun nquad hacc => ?_⟩
  obtain ⟨I, D, e1, e2⟩ := h3 nquad hacc
  refine ⟨I, D, e1, ?_⟩
  have e3 : |(∫ E in lo..hi, σ E) * iterIntegral h rest - r.ics * iterIntegral h rest| ≤
      Real.exp (-(L / dopplerWidth k amu T r.er) ^ 2) * r.ics * |iterIntegral h rest| := by
    rw [← sub_mul, abs_mul]
    refine mul_le_mul_of_nonneg_right ?_ (abs_nonneg _)
    rw [abs_le]
    constructor <;> nlinarith
  calc |I - r.ics * iterIntegral h rest| = |(I - (∫ E in lo..hi, σ E) * iterIntegral h rest) +
        ((∫ E in lo..hi, σ E) * iterIntegral h rest - r.ics * iterIntegral h rest)| := by congr 1; ring
    _ ≤ _ := (abs_add_le _ _).trans (add_le_add e2 e3)

/-- The hypotheses are met by all four shapes of a level of 20 meV at room temperature; limits at a distance of 100 eV leave out less
than a thousandth. -/
example : ∃ b g v p d, mkBreitWigner exConst exGround exThin none = .ok b ∧ mkGauss exConst exGround exThin 11 293 none = .ok g ∧
    IsVoigtOf v 2e-8 d ∧ IsPseudoVoigtOf p 2e-8 d ∧ exThin.width = .ok 2e-8 ∧ exGround.exc < exThin.exc ∧ 0 < d ∧
    0 < b.ics ∧ 0 < g.ics ∧ 0 < v.ics ∧ 0 < p.ics ∧ 2 * 2e-8 / (Real.pi * 1e-4) + Real.exp (-(1e-4 / d) ^ 2 / 4) < 1e-3 := by
  obtain ⟨r, hr, he, hI⟩ := exThin_resonance
  obtain ⟨l1, l2⟩ := exThin_doppler
  have hd : 0 < dopplerWidth exConst 11 293 2 := by linarith
  have h11 : (11 : ℝ) ≠ 0 := by norm_num
  refine ⟨{ r with dist := cauchyDist, params := [r.er, 0.5 * 2e-8] },
    { r with dist := normDist, params := [r.er, dopplerWidth exConst 11 293 r.er / Real.sqrt 2] },
    { r with dist := (mkPV r.er 2e-8 (dopplerWidth exConst 11 293 2)).toSemiDist, params := [] },
    { r with dist := (mkPV r.er 2e-8 (dopplerWidth exConst 11 293 2)).toDist, params := [] }, dopplerWidth exConst 11 293 2,
    ?_, ?_, ?_, ?_, exThin_width, by norm_num [exGround, exThin, groundState, state], hd, hI, hI, hI, hI, ?_⟩
  · simp [mkBreitWigner, hr, exThin_width, Bind.bind, Except.bind]
  · simp [mkGauss, hr, getDopplerWidth_ok exConst h11, Bind.bind, Except.bind]
  · refine ⟨exConst, exGround, exThin, 11, 293, none, ?_, by norm_num, by norm_num,
      by norm_num [exGround, exThin, groundState, state], exThin_width, ?_, by norm_num, Or.inl (by norm_num)⟩
    · simp [mkVoigt, mkPseudoVoigt, hr, exThin_width, getDopplerWidth_ok exConst h11, Bind.bind, Except.bind, he]
    · simp [getDopplerWidth_ok exConst h11, he]
  · refine ⟨exConst, exGround, exThin, 11, 293, none, ?_, by norm_num, by norm_num,
      by norm_num [exGround, exThin, groundState, state], exThin_width, ?_, by norm_num, Or.inl (by norm_num)⟩
    · simp [mkPseudoVoigt, hr, exThin_width, getDopplerWidth_ok exConst h11, Bind.bind, Except.bind, he]
    · simp [getDopplerWidth_ok exConst h11, he]
  · have h1 : 2 * 2e-8 / (Real.pi * 1e-4) ≤ 4e-8 / (3 * 1e-4) := by
      rw [show (2 * 2e-8 : ℝ) = 4e-8 by norm_num]
      exact div_le_div_of_nonneg_left (by norm_num) (by norm_num) (by linarith [Real.pi_gt_three])
    have h2 : 20 ≤ 1e-4 / dopplerWidth exConst 11 293 2 := by
      rw [le_div_iff₀ hd]; linarith
    have h3 : Real.exp (-(1e-4 / dopplerWidth exConst 11 293 2) ^ 2 / 4) ≤ 1 / 9000 := by
      have h4 : -(1e-4 / dopplerWidth exConst 11 293 2) ^ 2 / 4 ≤ -100 := by nlinarith
      have h5 : (9000 : ℝ) ≤ Real.exp 100 := by
        have := Real.add_one_le_exp (50 : ℝ)
        have h6 : Real.exp 100 = Real.exp 50 * (Real.exp 25 * Real.exp 25) := by
          rw [← Real.exp_add, ← Real.exp_add]; norm_num
        have h7 := Real.add_one_le_exp (25 : ℝ)
        rw [h6]
        nlinarith
      calc _ ≤ Real.exp (-100) := Real.exp_le_exp.2 h4
        _ = 1 / Real.exp 100 := by rw [Real.exp_neg, one_div]
        _ ≤ 1 / 9000 := one_div_le_one_div_of_le (by norm_num) h5
    have h6 : (4e-8 : ℝ) / (3 * 1e-4) + 1 / 9000 < 1e-3 := by norm_num
    linarith

end Ries
