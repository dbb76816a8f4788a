import Verif.Props.DopplerSpread
import Verif.Props.SelfAbsorption
import Verif.Props.ComptonGrowth
import Verif.Props.ComptonAngles
import Mathlib.Analysis.Calculus.MeanValue

/-!
# C181: small errors of the input cause small errors of the cross sections
-/

open MeasureTheory Set

namespace Ries

/-! ## Lemmas -/

theorem log_one_add_sq_lip (a b : ℝ) : Real.log (1 + a ^ 2) - Real.log (1 + b ^ 2) ≤ |a - b| := by
  have hd : ∀ x ∈ (univ : Set ℝ), HasDerivWithinAt (fun x : ℝ => Real.log (1 + x ^ 2)) (2 * x / (1 + x ^ 2)) univ x := by
    intro x _
    have h1 : HasDerivAt (fun x : ℝ => 1 + x ^ 2) (2 * x) x := by
      have := (hasDerivAt_pow 2 x).const_add 1
      simpa using this
    exact (h1.log (by positivity)).hasDerivWithinAt
  have hb : ∀ x ∈ (univ : Set ℝ), ‖2 * x / (1 + x ^ 2)‖ ≤ 1 := by
    intro x _
    rw [Real.norm_eq_abs, abs_div, abs_of_pos (show 0 < 1 + x ^ 2 by positivity), div_le_one (by positivity), abs_le]
    constructor <;> nlinarith [sq_nonneg (x - 1), sq_nonneg (x + 1)]
  have h := Convex.norm_image_sub_le_of_norm_hasDerivWithin_le hd hb convex_univ (mem_univ b) (mem_univ a)
  rw [Real.norm_eq_abs, Real.norm_eq_abs, one_mul] at h
  exact (le_abs_self _).trans h

/-- a Lorentz curve changes by at most the factor `exp (|h| / γ)` over the distance `h` -/
theorem cauchyPdf_shift_le (er x h : ℝ) {g : ℝ} (hg : 0 < g) : cauchyPdf er g (x + h) ≤ Real.exp (|h| / g) * cauchyPdf er g x := by
  have hp := Real.pi_pos
  have hl := log_one_add_sq_lip ((x - er) / g) ((x + h - er) / g)
  have e : |(x - er) / g - (x + h - er) / g| = |h| / g := by
    rw [← sub_div, abs_div, abs_of_pos hg, show x - er - (x + h - er) = -h by ring, abs_neg]
  rw [e] at hl
  unfold cauchyPdf
  set a := (x - er) / g
  set b := (x + h - er) / g
  have ha : 0 < 1 + a ^ 2 := by positivity
  have hb : 0 < 1 + b ^ 2 := by positivity
  have h1 : 1 + a ^ 2 ≤ Real.exp (|h| / g) * (1 + b ^ 2) := by
    rw [← Real.log_le_log_iff ha (by positivity), Real.log_mul (Real.exp_pos _).ne' hb.ne', Real.log_exp]
    linarith
  rw [mul_one_div, div_le_div_iff₀ (by positivity) (by positivity)]
  have := mul_le_mul_of_nonneg_left h1 (show 0 ≤ Real.pi * g by positivity)
  linarith

theorem coldVoigt_shift_le (er x h s : ℝ) {g : ℝ} (hg : 0 < g) :
    coldVoigt er g (x + h) s ≤ Real.exp (|h| / g) * coldVoigt er g x s := by
  unfold coldVoigt
  rw [← integral_const_mul]
  refine integral_mono (coldVoigt_integrable er _ s hg) ((coldVoigt_integrable er x s hg).const_mul _) fun t => ?_
  have h1 := cauchyPdf_shift_le er (x - s * t) h hg
  have h2 := mul_le_mul_of_nonneg_left h1 (normPdf_pos one_pos 0 t).le
  have e : x + h - s * t = x - s * t + h := by ring
  simp only [e]
  linarith

/-- a wider Lorentz curve of the same maximum is higher by at most the square of the ratio of the widths -/
theorem cauchy_scaled_le (er x : ℝ) {g g' : ℝ} (hg : 0 < g) (hgg : g ≤ g') :
    g' * cauchyPdf er g' x ≤ (g' / g) ^ 2 * (g * cauchyPdf er g x) := by
  have hg' := hg.trans_le hgg
  have hp := Real.pi_pos
  have e : ∀ g, 0 < g → g * cauchyPdf er g x = g ^ 2 / (Real.pi * ((x - er) ^ 2 + g ^ 2)) := by
    intro g hg
    unfold cauchyPdf
    field_simp
    ring
  rw [e g hg, e g' hg']
  have e2 : (g' / g) ^ 2 * (g ^ 2 / (Real.pi * ((x - er) ^ 2 + g ^ 2))) = g' ^ 2 / (Real.pi * ((x - er) ^ 2 + g ^ 2)) := by
    field_simp
  rw [e2]
  have h1 : g ^ 2 ≤ g' ^ 2 := pow_le_pow_left₀ hg.le hgg 2
  refine div_le_div_of_nonneg_left (by positivity) (by positivity) ?_
  exact mul_le_mul_of_nonneg_left (by linarith) hp.le

theorem coldVoigt_scaled_le (er E s : ℝ) {g g' : ℝ} (hg : 0 < g) (hgg : g ≤ g') :
    g' * coldVoigt er g' E s ≤ (g' / g) ^ 2 * (g * coldVoigt er g E s) := by
  have hg' := hg.trans_le hgg
  simp only [coldVoigt, ← integral_const_mul]
  refine integral_mono ((coldVoigt_integrable er E s hg').const_mul _)
    (((coldVoigt_integrable er E s hg).const_mul _).const_mul _) fun t => ?_
  have := mul_le_mul_of_nonneg_left (cauchy_scaled_le er (E - s * t) hg hgg) (normPdf_pos one_pos 0 t).le
  simp only
  linarith

/-- a wider normal distribution is nowhere lower by more than the ratio of the widths -/
theorem normPdf_wider (er x : ℝ) {s s' : ℝ} (hs : 0 < s) (hss : s ≤ s') : s / s' * normPdf er s x ≤ normPdf er s' x := by
  have hs' := hs.trans_le hss
  have hp := Real.pi_pos
  unfold normPdf
  have e : s / s' * (Real.exp (-((x - er) / s) ^ 2 / 2) / (s * Real.sqrt (2 * Real.pi))) =
      Real.exp (-((x - er) / s) ^ 2 / 2) / (s' * Real.sqrt (2 * Real.pi)) := by
    field_simp
  rw [e]
  refine div_le_div_of_nonneg_right (Real.exp_le_exp.2 ?_) (by positivity)
  have h1 : ((x - er) / s') ^ 2 ≤ ((x - er) / s) ^ 2 := by
    rw [div_pow, div_pow]
    exact div_le_div_of_nonneg_left (sq_nonneg _) (by positivity) (pow_le_pow_left₀ hs.le hss 2)
  linarith

theorem narrowVoigt_integrable (er E g : ℝ) {s : ℝ} (hs : 0 < s) :
    Integrable fun t => cauchyPdf 0 1 t * normPdf er s (E - g * t) := by
  refine (cauchy_good 0 one_pos).integrable.mul_bdd (c := normPdf er s er) ?_ ?_
  · exact ((normPdf_continuous er s).comp (continuous_const.sub (continuous_const.mul continuous_id))).aestronglyMeasurable
  · refine Filter.Eventually.of_forall fun t => ?_
    rw [Real.norm_of_nonneg (normPdf_pos hs _ _).le]
    exact (norm_peaked er hs).le_peak _

theorem coldVoigt_wider (er E : ℝ) {g s s' : ℝ} (hg : 0 < g) (hs : 0 < s) (hss : s ≤ s') :
    s / s' * coldVoigt er g E s ≤ coldVoigt er g E s' := by
  have hs' := hs.trans_le hss
  rw [← coldVoigt_eq er E g hs, ← coldVoigt_eq er E g hs', narrowVoigt_eq er E s hg, narrowVoigt_eq er E s' hg]
  unfold narrowVoigt
  rw [← integral_const_mul]
  refine integral_mono ((narrowVoigt_integrable er E g hs).const_mul _) (narrowVoigt_integrable er E g hs') fun t => ?_
  have := mul_le_mul_of_nonneg_left (normPdf_wider er (E - g * t) hs hss) (cauchyPdf_pos one_pos 0 t).le
  simp only
  linarith

theorem dopplerWidth_ratio (k : PhysConst) {amu amu' T T' E : ℝ} (ha : 0 < amu) (ha' : 0 < amu') (hT : 0 < T) (hT' : 0 < T') (hE : 0 < E) :
    dopplerWidth k amu T E / dopplerWidth k amu' T' E = Real.sqrt ((T / amu) / (T' / amu')) := by
  have hu := k.u_pos
  have hk := k.kB_pos
  unfold dopplerWidth
  rw [mul_div_mul_left _ _ hE.ne', ← Real.sqrt_div (by positivity)]
  congr 1
  field_simp

theorem norm_ratio_unbounded (er : ℝ) {s s' : ℝ} (hs : 0 < s) (hss : s < s') (K : ℝ) :
    ∃ x, K * normPdf er s x < normPdf er s' x := by
  have hs' := hs.trans hss
  have hp := Real.pi_pos
  have hc : 0 < 1 / s ^ 2 - 1 / s' ^ 2 := by
    rw [sub_pos]
    exact one_div_lt_one_div_of_lt (by positivity) (pow_lt_pow_left₀ hss hs.le (by norm_num))
  set c := 1 / s ^ 2 - 1 / s' ^ 2 with hcd
  set L := |K| * s' / s with hL
  have hL0 : 0 ≤ L := by positivity
  refine ⟨er + Real.sqrt (2 * L / c), ?_⟩
  have hq : (Real.sqrt (2 * L / c)) ^ 2 = 2 * L / c := Real.sq_sqrt (by positivity)
  unfold normPdf
  rw [add_sub_cancel_left]
  set x := Real.sqrt (2 * L / c)
  have e1 : -(x / s) ^ 2 / 2 = -(x / s') ^ 2 / 2 - L := by
    have : x ^ 2 * c = 2 * L := by rw [hq]; field_simp
    rw [hcd] at this
    have h2 : (x / s) ^ 2 = x ^ 2 * (1 / s ^ 2) := by rw [div_pow]; ring
    have h3 : (x / s') ^ 2 = x ^ 2 * (1 / s' ^ 2) := by rw [div_pow]; ring
    rw [h2, h3]
    linarith
  rw [e1, Real.exp_sub]
  have hexp := Real.add_one_le_exp L
  have hpos := Real.exp_pos (-(x / s') ^ 2 / 2)
  set A := Real.exp (-(x / s') ^ 2 / 2)
  have hB : L < Real.exp L := by linarith
  have hBpos := Real.exp_pos L
  set B := Real.exp L
  have hK : K * s' < B * s := by
    have h1 : L * s = |K| * s' := by rw [hL]; field_simp
    have h2 := mul_lt_mul_of_pos_right hB hs
    have h3 := mul_le_mul_of_nonneg_right (le_abs_self K) hs'.le
    linarith
  have hq2 : 0 < Real.sqrt (2 * Real.pi) := Real.sqrt_pos.2 (by positivity)
  rw [div_div, ← mul_div_assoc, div_lt_div_iff₀ (by positivity) (by positivity)]
  have := mul_lt_mul_of_pos_left hK (mul_pos hpos hq2)
  linarith

/-! ## C181 -/

/-- C181, photon energy: over a distance `h`, a Breit-Wigner or Voigt cross section of natural width `w` changes by at most the factor
`exp (2 |h| / w)`, at every energy and temperature. -/
theorem C181_energy {k : PhysConst} {init inter : Level} {final : Option Level} {w : ℝ} {r : Reso} (hw : inter.width = .ok w) (hpos : 0 < w)
    (hr : mkBreitWigner k init inter final = .ok r ∨
      ∃ amu T, mkVoigt k init inter amu T final = .ok r ∧ 0 < amu ∧ 0 ≤ T ∧ init.exc < inter.exc) (hI : 0 ≤ r.ics) :
    ∃ σ, r.HasSigma σ ∧ ∀ E h, σ (E + h) ≤ Real.exp (2 * |h| / w) * σ E := by
  have hg : 0 < w / 2 := by linarith
  have e : ∀ h : ℝ, 2 * |h| / w = |h| / (w / 2) := fun h => by field_simp
  rcases hr with hr | ⟨amu, T, hr, ha, hT, hE⟩
  · obtain ⟨r0, w', -, hw', rfl⟩ := mkBreitWigner_inv hr
    rw [hw] at hw'; cases hw'
    have hs : (0 : ℝ) < 0.5 * w := by positivity
    refine ⟨_, (analytic_cauchy rfl rfl hs).sigma, fun E h => ?_⟩
    have h1 := mul_le_mul_of_nonneg_left (cauchyPdf_shift_le r0.er E h hs) hI
    have e1 : (0.5 : ℝ) * w = w / 2 := by ring
    rw [e h, ← e1]
    simp only at h1 ⊢
    linarith
  · refine ⟨_, voigt_sigma hr ha hT hE hw hpos, fun E h => ?_⟩
    have h1 := mul_le_mul_of_nonneg_left (coldVoigt_shift_le r.er E h (dopplerWidth k amu T r.er / Real.sqrt 2) hg) hI
    rw [e h]
    linarith

/-- C181, widths: if all partial widths are multiplied by factors `ε ≤ ε'`, the Breit-Wigner and Voigt cross sections are, at every energy,
larger for `ε'` by a factor between 1 and `(ε' / ε)²`. -/
theorem C181_width {k : PhysConst} {init inter : Level} {final : Option Level} {amu T w : ℝ} {b : Reso}
    (hb : mkBreitWigner k init inter final = .ok b) (ha : 0 < amu) (hT : 0 ≤ T)
    (hE : init.exc < inter.exc) (hw : inter.width = .ok w) (hpos : 0 < w) (hI : 0 < b.ics) :
    ∃ σv σb : ℝ → ℝ → ℝ, (∀ ε, 0 < ε →
        (∃ r, mkVoigt k init (inter.scaleWidths ε) amu T final = .ok r ∧ r.HasSigma (σv ε)) ∧
        ∃ r, mkBreitWigner k init (inter.scaleWidths ε) final = .ok r ∧ r.HasSigma (σb ε)) ∧
      ∀ ε ε', 0 < ε → ε ≤ ε' → ∀ E, σv ε E ≤ σv ε' E ∧ σv ε' E ≤ (ε' / ε) ^ 2 * σv ε E ∧
        σb ε E ≤ σb ε' E ∧ σb ε' E ≤ (ε' / ε) ^ 2 * σb ε E := by
  obtain ⟨b0, w', hb0, hw', rfl⟩ := mkBreitWigner_inv hb
  have her := (mkResonance_inv hb0).1
  have hwε : ∀ ε, (inter.scaleWidths ε).width = .ok (ε * w) := fun ε => by rw [width_scale, hw]; rfl
  have hI0 : 0 < b0.ics := hI
  set d := dopplerWidth k amu T b0.er with hd
  have cancel : ∀ (ε y : ℝ), ε * b0.ics * y = 2 * b0.ics / w * (ε * w / 2 * y) := fun ε y => by field_simp
  have hk : 0 < 2 * b0.ics / w := by positivity
  have hcol : ∀ g E, cauchyPdf b0.er g E = coldVoigt b0.er g E 0 := fun g E => (coldVoigt_zero _ _ _).symm
  have hmono : ∀ s, 0 ≤ s → ∀ ε ε', 0 < ε → ε ≤ ε' → ∀ E,
      ε * b0.ics * coldVoigt b0.er (ε * w / 2) E s ≤ ε' * b0.ics * coldVoigt b0.er (ε' * w / 2) E s ∧
      ε' * b0.ics * coldVoigt b0.er (ε' * w / 2) E s ≤ (ε' / ε) ^ 2 * (ε * b0.ics * coldVoigt b0.er (ε * w / 2) E s) := by
    intro s hs ε ε' hε hle E
    have hg : 0 < ε * w / 2 := by positivity
    have hgg : ε * w / 2 ≤ ε' * w / 2 := by nlinarith
    rw [cancel, cancel]
    constructor
    · refine mul_le_mul_of_nonneg_left ?_ hk.le
      rcases hgg.eq_or_lt with h | h
      · rw [h]
      rcases hs.eq_or_lt with rfl | hs
      · rw [coldVoigt_zero, coldVoigt_zero]
        by_cases hE : E = b0.er
        · rw [hE, cauchy_scaled_mid _ hg, cauchy_scaled_mid _ (hg.trans h)]
        · exact (cauchy_scaled_lt _ _ hg h hE).le
      · exact (coldVoigt_scaled_lt b0.er E hs hg h).le
    · have h1 := mul_le_mul_of_nonneg_left (coldVoigt_scaled_le b0.er E s hg hgg) hk.le
      have e : ε' * w / 2 / (ε * w / 2) = ε' / ε := by field_simp
      rw [e] at h1
      linarith
  have hs : 0 ≤ d / Real.sqrt 2 := by
    have : 0 < b0.er := by rw [her]; unfold noRecoil; linarith
    rw [hd]; unfold dopplerWidth; positivity
  refine ⟨fun ε E => ε * b0.ics * coldVoigt b0.er (ε * w / 2) E (d / Real.sqrt 2), fun ε E => ε * b0.ics * cauchyPdf b0.er (ε * w / 2) E,
    fun ε hε => ⟨?_, ?_⟩, ?_⟩
  · have hr0 := resonance_scale hε.ne' hb0
    have hbuild : mkVoigt k init (inter.scaleWidths ε) amu T final =
        .ok { b0 with ics := ε * b0.ics, dist := (mkPV b0.er (ε * w) d).toSemiDist, params := [] } := by
      simp only [mkVoigt, mkPseudoVoigt, hr0, hwε, getDopplerWidth_ok k ha.ne', Bind.bind, Except.bind, ← hd]
    exact ⟨_, hbuild, voigt_sigma hbuild ha hT hE (hwε ε) (by positivity)⟩
  · have hr0 := resonance_scale hε.ne' hb0
    refine ⟨{ b0 with ics := ε * b0.ics, dist := cauchyDist, params := [b0.er, 0.5 * (ε * w)] }, ?_, ?_⟩
    · simp only [mkBreitWigner, hr0, hwε, Bind.bind, Except.bind]
    · have h := (analytic_cauchy (r := { b0 with ics := ε * b0.ics, dist := cauchyDist, params := [b0.er, 0.5 * (ε * w)] })
        rfl rfl (by positivity)).sigma
      have e : 0.5 * (ε * w) = ε * w / 2 := by ring
      simp only [e] at h ⊢
      exact h
  · intro ε ε' hε hle E
    have h1 := hmono _ hs ε ε' hε hle E
    have h2 := hmono 0 le_rfl ε ε' hε hle E
    simp only [coldVoigt_zero] at h2
    exact ⟨h1.1, h1.2, h2.1, h2.2⟩

/-- C181, temperature and mass, Voigt: a higher ratio of temperature and mass lowers the cross section at no energy by more than the square root
of the change; at the resonance energy it does not raise it. -/
theorem C181_voigt {k : PhysConst} {init inter : Level} {final : Option Level} {amu amu' T T' w : ℝ} {r r' : Reso}
    (hr : mkVoigt k init inter amu T final = .ok r) (hr' : mkVoigt k init inter amu' T' final = .ok r')
    (ha : 0 < amu) (ha' : 0 < amu') (hT : 0 < T) (hE : init.exc < inter.exc) (hw : inter.width = .ok w) (hpos : 0 < w)
    (hI : 0 < r.ics) (h : T / amu < T' / amu') :
    ∃ σ σ' : ℝ → ℝ, r.HasSigma σ ∧ r'.HasSigma σ' ∧ (∀ E, Real.sqrt ((T / amu) / (T' / amu')) * σ E ≤ σ' E) ∧ σ' r.er ≤ σ r.er := by
  obtain ⟨σ, σ', hσ, hσ', e1, -, hlt, -⟩ := C157_voigt hr hr' ha ha' hT.le hE hw hpos hI h
  have hT' : 0 < T' := by
    have : 0 < T' / amu' := (div_pos hT ha).trans h
    exact (div_pos_iff_of_pos_right ha').1 this
  refine ⟨σ, σ', hσ, hσ', fun E => ?_, hlt.le⟩
  have v1 := voigt_sigma hr ha hT.le hE hw hpos
  have v2 := voigt_sigma hr' ha' hT'.le hE hw hpos
  obtain ⟨s2, s3⟩ : r'.ics = r.ics ∧ r.er = inter.exc - init.exc := by
    obtain ⟨r0, d, ps, hr0, -, rfl⟩ := build_inv (s := .voigt amu T) hr
    obtain ⟨r0', d', ps', hr0', -, rfl⟩ := build_inv (s := .voigt amu' T') hr'
    have h1 : mkResonance k init inter final noRecoil = .ok r0 := hr0
    have h2 : mkResonance k init inter final noRecoil = .ok r0' := hr0'
    rw [h1] at h2; cases h2
    exact ⟨rfl, (mkResonance_inv h1).1⟩
  have f1 : σ E = r.ics * coldVoigt r.er (w / 2) E (dopplerWidth k amu T r.er / Real.sqrt 2) := by
    have := (hσ E).symm.trans (v1 E); simpa using this
  have f2 : σ' E = r'.ics * coldVoigt r'.er (w / 2) E (dopplerWidth k amu' T' r'.er / Real.sqrt 2) := by
    have := (hσ' E).symm.trans (v2 E); simpa using this
  rw [f1, f2, e1, s2]
  have hpe : 0 < r.er := by rw [s3]; linarith
  have d1 := dopplerWidth_pos k ha hT hpe
  have d2 := dopplerWidth_pos k ha' hT' hpe
  rw [div_lt_div_iff₀ ha ha'] at h
  have hlt' := dopplerWidth_lt k ha ha' hT.le hpe h
  have := mul_le_mul_of_nonneg_left (coldVoigt_wider r.er E (g := w / 2) (by linarith) (s := dopplerWidth k amu T r.er / Real.sqrt 2)
    (s' := dopplerWidth k amu' T' r.er / Real.sqrt 2) (by positivity) (div_le_div_of_nonneg_right hlt'.le (by positivity))) hI.le
  have e : dopplerWidth k amu T r.er / Real.sqrt 2 / (dopplerWidth k amu' T' r.er / Real.sqrt 2) = Real.sqrt ((T / amu) / (T' / amu')) := by
    rw [div_div_div_cancel_right₀ (by positivity), dopplerWidth_ratio k ha ha' hT hT' hpe]
  rw [e] at this
  linarith

/-- C181, temperature and mass, Gauss: likewise; at the resonance energy the cross section is proportional to the inverse square root. -/
theorem C181_gauss {k : PhysConst} {init inter : Level} {final : Option Level} {amu amu' T T' : ℝ} {r r' : Reso}
    (hr : mkGauss k init inter amu T final = .ok r) (hr' : mkGauss k init inter amu' T' final = .ok r')
    (ha : 0 < amu) (ha' : 0 < amu') (hT : 0 < T) (hE : init.exc < inter.exc) (hI : 0 < r.ics) (h : T / amu < T' / amu') :
    ∃ σ σ' : ℝ → ℝ, r.HasSigma σ ∧ r'.HasSigma σ' ∧ (∀ E, Real.sqrt ((T / amu) / (T' / amu')) * σ E ≤ σ' E) ∧
      σ' r.er = Real.sqrt ((T / amu) / (T' / amu')) * σ r.er ∧ ∀ K, ∃ E, K * σ E < σ' E := by
  have hT' : 0 < T' := by
    have : 0 < T' / amu' := (div_pos hT ha).trans h
    exact (div_pos_iff_of_pos_right ha').1 this
  rw [div_lt_div_iff₀ ha ha'] at h
  obtain ⟨r0, h0, -, rfl⟩ := mkGauss_inv hr
  obtain ⟨r0', h0', -, rfl⟩ := mkGauss_inv hr'
  rw [h0] at h0'; cases h0'
  have her := (mkResonance_inv h0).1
  have hpe : 0 < r0.er := by rw [her]; unfold noRecoil; linarith
  have hlt := dopplerWidth_lt k ha ha' hT.le hpe h
  have d1 := dopplerWidth_pos k ha hT hpe
  have e : Real.sqrt ((T / amu) / (T' / amu')) = dopplerWidth k amu T r0.er / Real.sqrt 2 / (dopplerWidth k amu' T' r0.er / Real.sqrt 2) := by
    rw [div_div_div_cancel_right₀ (by positivity), dopplerWidth_ratio k ha ha' hT hT' hpe]
  have hs : 0 < dopplerWidth k amu T r0.er / Real.sqrt 2 := by positivity
  have hss : dopplerWidth k amu T r0.er / Real.sqrt 2 < dopplerWidth k amu' T' r0.er / Real.sqrt 2 :=
    div_lt_div_of_pos_right hlt (by positivity)
  have hs' := hs.trans hss
  rw [e]
  refine ⟨_, _, (analytic_norm rfl rfl hs).sigma, (analytic_norm rfl rfl hs').sigma, fun E => ?_, ?_, fun K => ?_⟩
  · have := mul_le_mul_of_nonneg_left (normPdf_wider r0.er E hs hss.le) hI.le
    simp only at this ⊢
    linarith
  · simp only [normPdf, sub_self]
    generalize dopplerWidth k amu T r0.er / Real.sqrt 2 = s at *
    generalize dopplerWidth k amu' T' r0.er / Real.sqrt 2 = s' at *
    simp
    field_simp
  · obtain ⟨E, hE⟩ := norm_ratio_unbounded r0.er hs hss K
    refine ⟨E, ?_⟩
    have := mul_lt_mul_of_pos_left hE hI
    simp only at this ⊢
    linarith

/-- C181, energy, Gauss: there is no such bound.  However small the change of the energy and however large the factor, far out in the wing
the cross section changes by more than that. -/
theorem C181_gauss_energy {k : PhysConst} {init inter : Level} {final : Option Level} {amu T : ℝ} {r : Reso}
    (hr : mkGauss k init inter amu T final = .ok r) (ha : 0 < amu) (hT : 0 < T) (hE : init.exc < inter.exc) (hI : 0 < r.ics) :
    ∃ σ : ℝ → ℝ, r.HasSigma σ ∧ ∀ h, h ≠ 0 → ∀ K, ∃ E, K * σ E < σ (E + h) := by
  obtain ⟨r0, h0, -, rfl⟩ := mkGauss_inv hr
  have her := (mkResonance_inv h0).1
  have hpe : 0 < r0.er := by rw [her]; unfold noRecoil; linarith
  have d1 := dopplerWidth_pos k ha hT hpe
  have hs : 0 < dopplerWidth k amu T r0.er / Real.sqrt 2 := by positivity
  refine ⟨_, (analytic_norm rfl rfl hs).sigma, fun h hh K => ?_⟩
  generalize dopplerWidth k amu T r0.er / Real.sqrt 2 = s at hs
  refine ⟨r0.er - h / 2 - |K| * s ^ 2 / h, ?_⟩
  have e : normPdf r0.er s (r0.er - h / 2 - |K| * s ^ 2 / h + h) =
      Real.exp |K| * normPdf r0.er s (r0.er - h / 2 - |K| * s ^ 2 / h) := by
    unfold normPdf
    rw [mul_div_assoc', ← Real.exp_add]
    congr 2
    field_simp
    ring
  simp only [e]
  have hp : 0 < normPdf r0.er s (r0.er - h / 2 - |K| * s ^ 2 / h) := by
    unfold normPdf; have := Real.pi_pos; positivity
  have h1 : K < Real.exp |K| := by linarith [le_abs_self K, Real.add_one_le_exp |K|]
  have h2 := mul_lt_mul_of_pos_right h1 (mul_pos (show 0 < r0.ics from hI) hp)
  linarith

namespace KN

/-- C181, Compton scattering: a photon energy that is larger by the factor `κ` gives a total cross section, and an unpolarized differential
cross section at every angle, that is smaller by a factor between 1 and `κ`. -/
theorem C181_compton (k : PhysConst) (s : KN) (hZ : 0 < s.Z) (hm : 0 < s.mc2) {E κ : ℝ} (hE : 0 < E) (hκ : 1 ≤ κ) (θ : ℝ) :
    (s.total k (κ * E) ≤ s.total k E ∧ s.total k E ≤ κ * s.total k (κ * E)) ∧
    s.dOmegaUnpol k (κ * E) θ ≤ s.dOmegaUnpol k E θ ∧ s.dOmegaUnpol k E θ ≤ κ * s.dOmegaUnpol k (κ * E) θ := by
  rcases hκ.eq_or_lt with rfl | hκ
  · simp
  have hlt : E < κ * E := by nlinarith
  have hE' : 0 < κ * E := hE.trans hlt
  refine ⟨⟨((C44_total k s hZ hm).2.1 hE hE' hlt).le, ?_⟩, ?_⟩
  · have h := C44_growth k s hZ hm hE hE' hlt
    simp only at h
    have : E * s.total k E ≤ E * (κ * s.total k (κ * E)) := by linarith
    exact le_of_mul_le_mul_left this hE
  · have hs := scale_pos k s hZ hm
    have hp := Real.pi_pos
    by_cases hθ : Real.cos θ = 1
    · have h0 : ∀ E, KN.EpOverE k E θ = 1 := fun E => by simp [KN.EpOverE, hθ]
      have hsin : Real.sin θ ^ 2 = 0 := by have := Real.sin_sq_add_cos_sq θ; rw [hθ] at this; linarith
      rw [dOmegaUnpol_poly k s hE.le, dOmegaUnpol_poly k s hE'.le, h0, h0, hsin]
      have : 0 < Real.pi * s.scale k := by positivity
      exact ⟨le_rfl, by nlinarith⟩
    · have hc : Real.cos θ < 1 := lt_of_le_of_ne (Real.cos_le_one θ) hθ
      have h1 := (C167_energy k s hZ hm hθ).1 (Set.mem_Ici.2 hE.le) (Set.mem_Ici.2 hE'.le) hlt
      refine ⟨h1.le, ?_⟩
      have x0 : 0 < E / k.me := div_pos hE k.me_pos
      have x1 : E / k.me < κ * E / k.me := div_lt_div_of_pos_right hlt k.me_pos
      have hr := rat_strictAnti hc (Set.mem_Ici.2 x0.le) (Set.mem_Ici.2 (x0.trans x1).le) x1
      beta_reduce at hr
      have hf := falloff (sq_nonneg _) (Real.sin_sq_le_one θ) hr
      have t : ∀ x, 0 < x → x * (1 - Real.cos θ) * KN.rat x θ = 1 - KN.rat x θ := by
        intro x hx
        have : 1 + x * (1 - Real.cos θ) ≠ 0 := by nlinarith
        unfold KN.rat
        field_simp
        ring
      have t1 := t _ x0
      have t2 := t _ (x0.trans x1)
      rw [dOmegaUnpol_poly k s hE.le, dOmegaUnpol_poly k s hE'.le]
      change _ * (KN.rat (E / k.me) θ ^ 3 + KN.rat (E / k.me) θ - KN.rat (E / k.me) θ ^ 2 * _) ≤
        κ * (_ * (KN.rat (κ * E / k.me) θ ^ 3 + KN.rat (κ * E / k.me) θ - KN.rat (κ * E / k.me) θ ^ 2 * _))
      rw [mul_left_comm κ]
      refine mul_le_mul_of_nonneg_left ?_ (by positivity)
      rw [mul_div_assoc κ] at t2 hf ⊢
      generalize KN.rat (κ * (E / k.me)) θ = a at *
      generalize KN.rat (E / k.me) θ = b at *
      generalize E / k.me = x at *
      generalize Real.sin θ ^ 2 = q at *
      have hu : 0 < 1 - Real.cos θ := by linarith
      generalize 1 - Real.cos θ = u at *
      refine le_of_mul_le_mul_left (a := x * u) ?_ (by positivity)
      have e1 : x * u * (b ^ 3 + b - b ^ 2 * q) = (1 - b) * (b ^ 2 + 1 - b * q) := by rw [← t1]; ring
      have e2 : x * u * (κ * (a ^ 3 + a - a ^ 2 * q)) = (1 - a) * (a ^ 2 + 1 - a * q) := by rw [← t2]; ring
      rw [e1, e2]
      exact hf.le

example : 0 < (electron exConst 82).Z ∧ 0 < (electron exConst 82).mc2 := ⟨by norm_num [electron], exConst.me_pos⟩

end KN

example : ∃ v v' g g' b, mkVoigt exConst exGround exMid 11 293 none = .ok v ∧ mkVoigt exConst exGround exMid 11 300 none = .ok v' ∧
    mkGauss exConst exGround exMid 11 293 none = .ok g ∧ mkGauss exConst exGround exMid 11 300 none = .ok g' ∧
    mkBreitWigner exConst exGround exMid none = .ok b ∧
    exGround.exc < exMid.exc ∧ exMid.width = .ok 1e-5 ∧ 0 < v.ics ∧ 0 < g.ics ∧ 0 < b.ics ∧ (293 : ℝ) / 11 < 300 / 11 := by
  obtain ⟨r, hr, he, hI⟩ := exMid_resonance
  have hv : ∀ T : ℝ, mkVoigt exConst exGround exMid 11 T none =
      .ok { r with dist := (mkPV r.er 1e-5 (dopplerWidth exConst 11 T r.er)).toSemiDist, params := [] } := fun T => by
    simp [mkVoigt, mkPseudoVoigt, hr, exMid_width, getDopplerWidth_ok exConst (show (11 : ℝ) ≠ 0 by norm_num), Bind.bind, Except.bind]
  have hg : ∀ T : ℝ, mkGauss exConst exGround exMid 11 T none =
      .ok { r with dist := normDist, params := [r.er, dopplerWidth exConst 11 T r.er / Real.sqrt 2] } := fun T => by
    simp [mkGauss, hr, getDopplerWidth_ok exConst (show (11 : ℝ) ≠ 0 by norm_num), Bind.bind, Except.bind]
  exact ⟨_, _, _, _, { r with dist := cauchyDist, params := [r.er, 0.5 * 1e-5] }, hv 293, hv 300, hg 293, hg 300,
    by simp [mkBreitWigner, hr, exMid_width, Bind.bind, Except.bind],
    by norm_num [exGround, exMid, groundState, state], exMid_width, hI, hI, hI, by norm_num⟩

end Ries
