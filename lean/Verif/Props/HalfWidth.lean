import Verif.Props.DopplerSpread

/-!
# C158: full widths at half maximum
-/

open MeasureTheory Set Filter

namespace Ries

/-- The cross section `σ` is above one half of its value at `c` exactly closer than `f / 2` to `c`, and equal to it exactly at the
distance `f / 2`. -/
def HasFWHM (σ : ℝ → ℝ) (c f : ℝ) : Prop :=
  0 < f ∧ ∀ E, (σ E = σ c / 2 ↔ |E - c| = f / 2) ∧ (σ c / 2 < σ E ↔ |E - c| < f / 2)

/-! ## Lemmas -/

/-- A cross section has at most one width. -/
theorem HasFWHM.unique {σ : ℝ → ℝ} {c f f' : ℝ} (h : HasFWHM σ c f) (h' : HasFWHM σ c f') : f = f' := by
  have e : |c + f / 2 - c| = f / 2 := by rw [add_sub_cancel_left, abs_of_pos (half_pos h.1)]
  have h1 := ((h.2 (c + f / 2)).1.2 e)
  have h2 := ((h'.2 (c + f / 2)).1.1 h1)
  rw [e] at h2
  linarith

/-- a peaked function that is at one half of its maximum somewhere -/
theorem Peaked.fwhm_of {c : ℝ} {p : ℝ → ℝ} (hp : Peaked c p) {x : ℝ} (hx : 0 < x) (hv : p (c + x) = p c / 2) : HasFWHM p c (2 * x) := by
  refine ⟨by linarith, fun E => ?_⟩
  have hE : p E = p (c + (E - c)) := by congr 1; ring
  have e : 2 * x / 2 = x := by ring
  rw [e]
  have hlt : |E - c| < x → p c / 2 < p E := fun h => by
    rw [hE, ← hv]
    exact hp.lt_of_abs (by rwa [abs_of_pos hx])
  have hgt : x < |E - c| → p E < p c / 2 := fun h => by
    rw [hE, ← hv]
    exact hp.lt_of_abs (by rwa [abs_of_pos hx])
  have heq : |E - c| = x → p E = p c / 2 := fun h => by rw [hE, ← hv, ← h, hp.abs_eq]
  rcases lt_trichotomy |E - c| x with h | h | h
  · exact ⟨⟨fun h' => absurd h' (hlt h).ne', fun h' => absurd h' h.ne⟩, fun _ => h, fun _ => hlt h⟩
  · exact ⟨⟨fun _ => h, fun _ => heq h⟩, fun h' => absurd (heq h) h'.ne', fun h' => absurd h h'.ne⟩
  · exact ⟨⟨fun h' => absurd h' (hgt h).ne, fun h' => absurd h' h.ne'⟩, fun h' => absurd (hgt h) h'.le.not_gt,
      fun h' => absurd h' h.le.not_gt⟩

/-- a peaked function that passes one half of its maximum between two distances -/
theorem Peaked.fwhm_between {c : ℝ} {p : ℝ → ℝ} (hp : Peaked c p) (hc : Continuous p) {x y : ℝ} (hx : 0 < x)
    (hv : p c / 2 ≤ p (c + x)) (hw : p (c + y) ≤ p c / 2) (hxy : x ≤ y) : ∃ f, HasFWHM p c f ∧ 2 * x ≤ f ∧ f ≤ 2 * y := by
  have hcc : ContinuousOn (fun t => p (c + t)) (Icc x y) := (hc.comp (continuous_const.add continuous_id)).continuousOn
  obtain ⟨t, ht, e⟩ := intermediate_value_Icc' hxy hcc ⟨hw, hv⟩
  exact ⟨2 * t, hp.fwhm_of (hx.trans_le ht.1) e, by linarith [ht.1], by linarith [ht.2]⟩

/-- scaling -/
theorem HasFWHM.const_mul {p : ℝ → ℝ} {c f k : ℝ} (h : HasFWHM p c f) (hk : 0 < k) : HasFWHM (fun E => k * p E) c f := by
  refine ⟨h.1, fun E => ?_⟩
  have e : k * p c / 2 = k * (p c / 2) := by ring
  simp only
  rw [e, mul_right_inj' hk.ne', mul_lt_mul_iff_right₀ hk]
  exact h.2 E

/-- A density that falls on both sides of `c` is below one half of its maximum at the distance 1 / maximum. -/
theorem Peaked.below_half {c : ℝ} {p : ℝ → ℝ} (hp : Peaked c p) (hi : Integrable p) (h1 : ∫ x, p x = 1) (hpos : ∀ x, 0 ≤ p x)
    (hc : 0 < p c) : p (c + 1 / p c) ≤ p c / 2 := by
  set y := 1 / p c with hy
  have hy0 : 0 < y := by positivity
  have hle : (∫ x in (c - y)..(c + y), p x) ≤ 1 := by
    rw [intervalIntegral.integral_of_le (by linarith), ← h1]
    exact setIntegral_le_integral hi (Eventually.of_forall hpos)
  have hge : 2 * y * p (c + y) ≤ ∫ x in (c - y)..(c + y), p x := by
    have := intervalIntegral.integral_mono_on (a := c - y) (b := c + y) (by linarith) (f := fun _ => p (c + y)) (g := p)
      (intervalIntegrable_const) hi.intervalIntegrable (fun x hx => by
        have := hp.le_of_abs (d := x - c) (e := y) (by
          rw [abs_of_pos hy0, abs_le]
          exact ⟨by linarith [hx.1], by linarith [hx.2]⟩)
        simpa using this)
    rw [intervalIntegral.integral_const, smul_eq_mul] at this
    linarith
  have : 2 * y * p (c + y) ≤ 1 := hge.trans hle
  have e : y * p c = 1 := by rw [hy]; field_simp
  have : y * (2 * p (c + y)) ≤ y * p c := by linarith
  have := le_of_mul_le_mul_left this hy0
  linarith

theorem voigt_continuous (er : ℝ) {s g : ℝ} (hs : 0 < s) (hg : 0 < g) : Continuous (voigtDensity er s g) := by
  have e : voigtDensity er s g = fun E => coldVoigt er g E s := by funext E; exact coldVoigt_eq er E g hs
  rw [e]
  have hc : Continuous (cauchyPdf er g) := (cauchy_good er hg).cont
  refine continuous_of_dominated (bound := fun t => normPdf 0 1 t * cauchyPdf er g er) ?_ ?_ ?_ ?_
  · exact fun E => (coldVoigt_integrable er E s hg).aestronglyMeasurable
  · intro E
    refine Eventually.of_forall fun t => ?_
    have h1 := (normPdf_pos one_pos 0 t).le
    rw [Real.norm_of_nonneg (mul_nonneg h1 (cauchyPdf_pos hg _ _).le)]
    exact mul_le_mul_of_nonneg_left ((cauchy_peaked er hg).le_peak _) h1
  · exact (norm_good 0 one_pos).integrable.mul_const _
  · exact Eventually.of_forall fun t => continuous_const.mul (hc.comp (continuous_id.sub continuous_const))

/-- averages of a shape that satisfies a pointwise inequality -/
theorem average_half {ρ p : ℝ → ℝ} {er x g : ℝ} (hρ : ∀ t, 0 < ρ t) (hsym : ∀ t, ρ (-t) = ρ t)
    (hi : ∀ E, Integrable fun t => ρ t * p (E - g * t)) (hpt : ∀ t ≠ 0, p (er - g * t) < p (er + x - g * t) + p (er + x + g * t))
    (h0 : p er ≤ 2 * p (er + x)) :
    (∫ t, ρ t * p (er - g * t)) / 2 < ∫ t, ρ t * p (er + x - g * t) := by
  have hm : ∫ t, ρ t * p (er + x - g * t) = ∫ t, ρ t * p (er + x + g * t) := by
    rw [← integral_neg_eq_self]
    refine integral_congr_ae (Eventually.of_forall fun t => ?_)
    simp only [hsym]
    congr 2
    ring
  have hi' : Integrable fun t => ρ t * p (er + x + g * t) := by
    have := (hi (er + x)).comp_neg
    refine this.congr (Eventually.of_forall fun t => ?_)
    simp only [hsym]
    congr 2
    ring
  have key : 0 < ∫ t, (ρ t * p (er + x - g * t) + ρ t * p (er + x + g * t) - ρ t * p (er - g * t)) := by
    have hpos : ∀ t ≠ 0, 0 < ρ t * p (er + x - g * t) + ρ t * p (er + x + g * t) - ρ t * p (er - g * t) := fun t ht => by
      have := mul_lt_mul_of_pos_left (hpt t ht) (hρ t)
      linarith
    have hnn : ∀ t, 0 ≤ ρ t * p (er + x - g * t) + ρ t * p (er + x + g * t) - ρ t * p (er - g * t) := fun t => by
      rcases eq_or_ne t 0 with rfl | ht
      · have := mul_le_mul_of_nonneg_left h0 (hρ 0).le
        simp only [mul_zero, sub_zero, add_zero]
        linarith
      · exact (hpos t ht).le
    rw [integral_pos_iff_support_of_nonneg hnn (((hi (er + x)).add hi').sub (hi er))]
    refine lt_of_lt_of_le ?_ (measure_mono (s := {0}ᶜ) fun t ht => (hpos t ht).ne')
    rw [measure_compl (measurableSet_singleton 0) (by simp)]
    simp
  have hadd : Integrable fun t => ρ t * p (er + x - g * t) + ρ t * p (er + x + g * t) := (hi (er + x)).add hi'
  rw [integral_sub hadd (hi er), integral_add (hi (er + x)) hi', ← hm] at key
  linarith

/-- The Voigt density is broader than its normal component. -/
theorem voigt_wider_norm (er : ℝ) {s g : ℝ} (hs : 0 < s) (hg : 0 < g) :
    voigtDensity er s g er / 2 < voigtDensity er s g (er + s * Real.sqrt (2 * Real.log 2)) := by
  rw [narrowVoigt_eq er er s hg, narrowVoigt_eq er _ s hg]
  unfold narrowVoigt
  have hl : 0 < Real.log 2 := Real.log_pos (by norm_num)
  set x := s * Real.sqrt (2 * Real.log 2) with hx
  have hshape := fun E => norm_shape er s E
  have hpk : 0 < normPdf er s er := normPdf_pos hs _ _
  have hx2 : (x / s) ^ 2 = 2 * Real.log 2 := by
    rw [hx, mul_div_cancel_left₀ _ hs.ne', Real.sq_sqrt (by positivity)]
  have hhalf : Real.exp (-(x / s) ^ 2 / 2) = 1 / 2 := by
    rw [hx2]
    have : -(2 * Real.log 2) / 2 = -Real.log 2 := by ring
    rw [this, Real.exp_neg, Real.exp_log (by norm_num)]
    norm_num
  refine average_half (cauchyPdf_pos one_pos 0) (fun t => by simp [cauchyPdf])
    (fun E => narrow_integrable er E g hs) ?_ ?_
  · intro t ht
    have hu : g * t ≠ 0 := mul_ne_zero hg.ne' ht
    generalize g * t = u at hu
    rw [hshape (er - u), hshape (er + x - u), hshape (er + x + u), ← mul_add]
    refine mul_lt_mul_of_pos_left ?_ hpk
    have e1 : -((er + x - u - er) / s) ^ 2 / 2 = -(x / s) ^ 2 / 2 + (-((er - u - er) / s) ^ 2 / 2) + x * u / s ^ 2 := by
      field_simp; ring
    have e2 : -((er + x + u - er) / s) ^ 2 / 2 = -(x / s) ^ 2 / 2 + (-((er - u - er) / s) ^ 2 / 2) + -(x * u / s ^ 2) := by
      field_simp; ring
    rw [e1, e2, Real.exp_add, Real.exp_add, Real.exp_add, Real.exp_add, hhalf]
    have hv : x * u / s ^ 2 ≠ 0 := by
      have : x ≠ 0 := by positivity
      positivity
    generalize x * u / s ^ 2 = v at hv
    have hc : 2 < Real.exp v + Real.exp (-v) := by
      have h1 := Real.add_one_lt_exp hv
      have h2 := Real.add_one_lt_exp (neg_ne_zero.2 hv)
      linarith
    have hE := Real.exp_pos (-((er - u - er) / s) ^ 2 / 2)
    nlinarith
  · rw [hshape (er + x)]
    have : er + x - er = x := by ring
    rw [this, hhalf]
    linarith

/-- The Voigt density is broader than its Cauchy component. -/
theorem voigt_wider_cauchy (er : ℝ) {s g : ℝ} (hs : 0 < s) (hg : 0 < g) :
    voigtDensity er s g er / 2 < voigtDensity er s g (er + g) := by
  rw [coldVoigt_eq er er g hs, coldVoigt_eq er _ g hs]
  unfold coldVoigt
  have hpi := Real.pi_pos
  refine average_half (normPdf_pos one_pos 0) (fun t => by simp [normPdf])
    (fun E => coldVoigt_integrable er E s hg) ?_ ?_
  · intro t ht
    have hu : s * t ≠ 0 := mul_ne_zero hs.ne' ht
    generalize s * t = u at hu
    have hu2 : 0 < u ^ 2 := by positivity
    have e : ∀ y, cauchyPdf er g (er + y) = g / Real.pi * (1 / (g ^ 2 + y ^ 2)) := fun y => by
      unfold cauchyPdf
      have : er + y - er = y := by ring
      rw [this]
      have : g ^ 2 + y ^ 2 ≠ 0 := by positivity
      field_simp
    have e1 : er - u = er + -u := by ring
    have e2 : er + g - u = er + (g - u) := by ring
    have e3 : er + g + u = er + (g + u) := by ring
    rw [e1, e2, e3, e, e, e, ← mul_add]
    refine mul_lt_mul_of_pos_left ?_ (by positivity)
    have p1 : 0 < g ^ 2 + (g - u) ^ 2 := by positivity
    have p2 : 0 < g ^ 2 + (g + u) ^ 2 := by positivity
    rw [neg_sq, div_add_div _ _ p1.ne' p2.ne', div_lt_div_iff₀ (by positivity) (by positivity)]
    have h4 : 0 < u ^ 4 := by positivity
    have : 0 < g ^ 2 * u ^ 2 := by positivity
    nlinarith
  · unfold cauchyPdf
    have : (er + g - er) / g = 1 := by field_simp; ring
    rw [this]
    simp
    field_simp
    norm_num

theorem norm_half (l : ℝ) {s : ℝ} (hs : 0 < s) : normPdf l s (l + s * Real.sqrt (2 * Real.log 2)) = normPdf l s l / 2 := by
  rw [norm_shape l s (l + _)]
  have hl : 0 < Real.log 2 := Real.log_pos (by norm_num)
  have e : ((l + s * Real.sqrt (2 * Real.log 2) - l) / s) ^ 2 = 2 * Real.log 2 := by
    rw [add_sub_cancel_left, mul_div_cancel_left₀ _ hs.ne', Real.sq_sqrt (by positivity)]
  rw [e]
  have : -(2 * Real.log 2) / 2 = -Real.log 2 := by ring
  rw [this, Real.exp_neg, Real.exp_log (by norm_num)]
  ring

theorem cauchy_at (l : ℝ) {s : ℝ} (hs : 0 < s) (k : ℝ) : cauchyPdf l s (l + k * s) = cauchyPdf l s l / (1 + k ^ 2) := by
  unfold cauchyPdf
  have hpi := Real.pi_pos
  have e : (l + k * s - l) / s = k := by rw [add_sub_cancel_left]; field_simp
  have : 1 + k ^ 2 ≠ 0 := by positivity
  rw [e, sub_self, zero_div]
  field_simp
  ring

/-- width of the normal component of a given Doppler width -/
theorem doppler_half (d : ℝ) : d / Real.sqrt 2 * Real.sqrt (2 * Real.log 2) = Real.sqrt (Real.log 2) * d := by
  rw [Real.sqrt_mul (by norm_num)]
  have : Real.sqrt 2 ≠ 0 := by positivity
  field_simp

/-- The pseudo-Voigt density at the half width of its normal component and at that of its Cauchy component. -/
theorem pv_half_values {er w d : ℝ} (h : PV.Ok w d) :
    (mkPV er w d).pdfR (er + (mkPV er w d).bigGamma / 2) =
      (mkPV er w d).pdfR er / 2 - 0.3 * ((mkPV er w d).eta * cauchyPdf er (mkPV er w d).cauchyScale er) ∧
    (mkPV er w d).pdfR er / 2 ≤ (mkPV er w d).pdfR (er + (mkPV er w d).bigGamma / 4) := by
  have hn := h.normScale_pos (er := er)
  have hG := h.gamma_pos (er := er)
  have hη := h.eta_bounds (er := er)
  have hl := sqrt_log_two_pos
  have es : (mkPV er w d).cauchyScale = (mkPV er w d).bigGamma / 4 := by
    simp only [PV.cauchyScale, mkPV]; ring
  have hc : 0 < (mkPV er w d).cauchyScale := by rw [es]; positivity
  have en : (mkPV er w d).normScale * Real.sqrt (2 * Real.log 2) = (mkPV er w d).bigGamma / 2 := by
    have e : (mkPV er w d).normScale = (mkPV er w d).bigGamma / (2 * Real.sqrt (Real.log 2)) / Real.sqrt 2 := rfl
    rw [e, doppler_half]
    field_simp
  have e0 : (mkPV er w d).er = er := rfl
  have n1 : normPdf er (mkPV er w d).normScale (er + (mkPV er w d).bigGamma / 2) = normPdf er (mkPV er w d).normScale er / 2 := by
    rw [← en]; exact norm_half er hn
  have c1 : cauchyPdf er (mkPV er w d).cauchyScale (er + (mkPV er w d).bigGamma / 2) = cauchyPdf er (mkPV er w d).cauchyScale er / 5 := by
    have : (mkPV er w d).bigGamma / 2 = 2 * (mkPV er w d).cauchyScale := by rw [es]; ring
    rw [this, cauchy_at er hc]; norm_num
  have c2 : cauchyPdf er (mkPV er w d).cauchyScale (er + (mkPV er w d).bigGamma / 4) = cauchyPdf er (mkPV er w d).cauchyScale er / 2 := by
    have : (mkPV er w d).bigGamma / 4 = 1 * (mkPV er w d).cauchyScale := by rw [es]; ring
    rw [this, cauchy_at er hc]; norm_num
  have n2 : normPdf er (mkPV er w d).normScale er / 2 ≤ normPdf er (mkPV er w d).normScale (er + (mkPV er w d).bigGamma / 4) := by
    rw [← n1]
    exact ((norm_peaked er hn).anti _ _ (by positivity) (by linarith)).le
  constructor
  · simp only [PV.pdfR, e0, n1, c1]; ring
  · simp only [PV.pdfR, e0, c2]
    have := mul_le_mul_of_nonneg_left n2 (sub_nonneg.2 hη.2)
    linarith

/-- For narrow levels the density is above one half of its maximum at the distance Γ / 2 - w. -/
theorem pv_half_near {er w d G : ℝ} (h : PV.Ok w d) (hGe : (mkPV er w d).bigGamma = G) (hw : 0 < w) (hq : 4 * w < G) :
    (mkPV er w d).pdfR er / 2 < (mkPV er w d).pdfR (er + (G / 2 - w)) := by
  have hG : 0 < G := by linarith
  have hn := h.normScale_pos (er := er)
  have hl := sqrt_log_two_pos
  have hl2 : 0 < Real.log 2 := Real.log_pos (by norm_num)
  have hl69 := Real.log_two_gt_d9
  obtain ⟨p1, -, -, p4⟩ := h.peaks (er := er)
  have es : (mkPV er w d).cauchyScale = G / 4 := by
    have : (mkPV er w d).cauchyScale = (mkPV er w d).bigGamma / 4 := by simp only [PV.cauchyScale, mkPV]; ring
    rw [this, hGe]
  have hc : 0 < (mkPV er w d).cauchyScale := by rw [es]; positivity
  rw [hGe] at p1 p4
  have hη0 := (h.eta_bounds (er := er)).1
  have hη : (mkPV er w d).eta ≤ 1.36603 * (w / G) := by
    have e : (mkPV er w d).eta = pvEta w (mkPV er w d).bigGamma := rfl
    rw [e, hGe, pvEta_ratio]
    have q0 : 0 < w / G := by positivity
    have q1 : w / G ≤ 1 := (div_le_one hG).2 (by linarith)
    generalize w / G = q at *
    nlinarith [mul_pos q0 q0, mul_pos (mul_pos q0 q0) q0]
  have q4 : w / G < 1 / 4 := by rw [div_lt_iff₀ hG]; linarith
  have q0 : 0 < w / G := by positivity
  -- normal component
  have n1 : normPdf er (mkPV er w d).normScale er * (1 / 2 + 1.03 * (w / G)) ≤ normPdf er (mkPV er w d).normScale (er + (G / 2 - w)) := by
    rw [norm_shape er _ (er + (G / 2 - w))]
    refine mul_le_mul_of_nonneg_left ?_ (normPdf_pos hn _ _).le
    have e : (mkPV er w d).normScale = G / (2 * Real.sqrt (Real.log 2)) / Real.sqrt 2 := by
      rw [← hGe]; rfl
    have e2 : -((er + (G / 2 - w) - er) / (mkPV er w d).normScale) ^ 2 / 2 =
        -Real.log 2 + Real.log 2 * (4 * (w / G) - 4 * (w / G) ^ 2) := by
      rw [e, add_sub_cancel_left]
      have h2 : Real.sqrt 2 ^ 2 = 2 := Real.sq_sqrt (by norm_num)
      have h3 : Real.sqrt (Real.log 2) ^ 2 = Real.log 2 := Real.sq_sqrt hl2.le
      have : ((G / 2 - w) / (G / (2 * Real.sqrt (Real.log 2)) / Real.sqrt 2)) ^ 2 =
          (1 - 2 * (w / G)) ^ 2 * Real.sqrt (Real.log 2) ^ 2 * Real.sqrt 2 ^ 2 := by field_simp
      rw [this, h2, h3]
      ring
    rw [e2, Real.exp_add, Real.exp_neg, Real.exp_log (by norm_num)]
    have := Real.add_one_le_exp (Real.log 2 * (4 * (w / G) - 4 * (w / G) ^ 2))
    generalize w / G = q at *
    have h5 : 3 * q ≤ 4 * q - 4 * q ^ 2 := by nlinarith
    have h6 : 0.693 * (3 * q) ≤ Real.log 2 * (4 * q - 4 * q ^ 2) := by
      refine mul_le_mul (by linarith) h5 (by positivity) hl2.le
    linarith
  have c1 : cauchyPdf er (mkPV er w d).cauchyScale er / 5 ≤ cauchyPdf er (mkPV er w d).cauchyScale (er + (G / 2 - w)) := by
    have : cauchyPdf er (mkPV er w d).cauchyScale (er + 2 * (mkPV er w d).cauchyScale) = cauchyPdf er (mkPV er w d).cauchyScale er / 5 := by
      rw [cauchy_at er hc]; norm_num
    rw [← this]
    refine ((cauchy_peaked er hc).anti _ _ (by linarith) ?_).le
    rw [es]; linarith
  have e0 : (mkPV er w d).er = er := rfl
  simp only [PV.pdfR, e0]
  set n := normPdf er (mkPV er w d).normScale er
  set c := cauchyPdf er (mkPV er w d).cauchyScale er
  set η := (mkPV er w d).eta
  have hη1 : 0.65 ≤ 1 - η := by linarith
  have m1 := mul_le_mul_of_nonneg_left n1 (show 0 ≤ 1 - η by linarith)
  have m2 := mul_le_mul_of_nonneg_left c1 hη0
  have hc0 : 0 < c := cauchyPdf_pos hc _ _
  have k1 : (1 - η) * (n * (1.03 * (w / G))) ≥ 0.65 * (0.93 / G * (1.03 * (w / G))) := by
    refine mul_le_mul hη1 ?_ (by positivity) (by linarith)
    exact mul_le_mul_of_nonneg_right p1 (by positivity)
  have k2 : 0.3 * (η * c) ≤ 0.3 * (1.36603 * (w / G) * (1.28 / G)) := by
    refine mul_le_mul_of_nonneg_left ?_ (by norm_num)
    exact mul_le_mul hη p4 hc0.le (by positivity)
  have k3 : 0.3 * (1.36603 * (w / G) * (1.28 / G)) < 0.65 * (0.93 / G * (1.03 * (w / G))) := by
    have : 0 < w / G * (1 / G) := by positivity
    have e1 : 0.3 * (1.36603 * (w / G) * (1.28 / G)) = 0.3 * 1.36603 * 1.28 * (w / G * (1 / G)) := by ring
    have e2 : 0.65 * (0.93 / G * (1.03 * (w / G))) = 0.65 * 0.93 * 1.03 * (w / G * (1 / G)) := by ring
    rw [e1, e2]
    exact mul_lt_mul_of_pos_right (by norm_num) this
  linarith

theorem pvGamma_unique {g l G : ℝ} (hg : 0 ≤ g) (hl : 0 ≤ l) (hG : 0 ≤ G)
    (h : G ^ 5 = g ^ 5 + 2.69269 * g ^ 4 * l + 2.42843 * g ^ 3 * l ^ 2 + 4.47163 * g ^ 2 * l ^ 3 + 0.07842 * g * l ^ 4 + l ^ 5) :
    pvGamma g l = G := by
  rw [pvGamma_eq hg hl, pvBase, ← h, pow_five_root hG]

/-! ## C158 -/

/-- C158 for Breit-Wigner resonances: the full width at half maximum is the width of the level. -/
theorem C158_breitWigner {k : PhysConst} {init inter : Level} {final : Option Level} {r : Reso} {w : ℝ}
    (hr : mkBreitWigner k init inter final = .ok r) (hw : inter.width = .ok w) (hpos : 0 < w) (hI : 0 < r.ics)
    (σ : ℝ → ℝ) (hσ : r.HasSigma σ) : HasFWHM σ r.er w := by
  obtain ⟨r0, w', h0, hw', rfl⟩ := mkBreitWigner_inv hr
  rw [hw] at hw'; cases hw'
  have hs : (0 : ℝ) < 0.5 * w := by linarith
  have hA : Analytic { r0 with dist := cauchyDist, params := [r0.er, 0.5 * w] } _ _ _ :=
    analytic_cauchy (l := r0.er) (s := 0.5 * w) rfl rfl hs
  rw [sigma_unique hσ hA.sigma]
  have h1 : HasFWHM (cauchyPdf r0.er (0.5 * w)) r0.er (2 * (0.5 * w)) := (cauchy_peaked r0.er hs).fwhm_of hs (by
    have := cauchy_at r0.er hs 1
    rw [one_mul] at this
    rw [this]; norm_num)
  have e : 2 * (0.5 * w) = w := by ring
  rw [e] at h1
  exact h1.const_mul hI

/-- C158 for Gauss resonances: 2 sqrt(ln 2) times the Doppler width. -/
theorem C158_gauss {k : PhysConst} {init inter : Level} {final : Option Level} {amu T : ℝ} {r : Reso}
    (hr : mkGauss k init inter amu T final = .ok r) (ha : 0 < amu) (hT : 0 < T) (hE : init.exc < inter.exc) (hI : 0 < r.ics)
    (σ : ℝ → ℝ) (hσ : r.HasSigma σ) :
    HasFWHM σ r.er (2 * Real.sqrt (Real.log 2) * (r.er * Real.sqrt (2 * k.kB * 1e-6 * T / (amu * k.u)))) := by
  obtain ⟨r0, h0, -, rfl⟩ := mkGauss_inv hr
  have her := (mkResonance_inv h0).1
  have hpos : 0 < r0.er := by rw [her]; unfold noRecoil; linarith
  have hd := dopplerWidth_pos k ha hT hpos
  have hs : 0 < dopplerWidth k amu T r0.er / Real.sqrt 2 := by positivity
  rw [sigma_unique hσ (analytic_norm rfl rfl hs).sigma]
  have hl : 0 < Real.log 2 := Real.log_pos (by norm_num)
  have h1 := (norm_peaked r0.er hs).fwhm_of (x := dopplerWidth k amu T r0.er / Real.sqrt 2 * Real.sqrt (2 * Real.log 2)) (by positivity)
    (norm_half r0.er hs)
  rw [doppler_half, ← mul_assoc] at h1
  exact h1.const_mul hI

/-- C158 for Voigt resonances: the full width at half maximum is larger than the width of the level and larger than that of the Doppler
broadening, and at temperature zero it is the width of the level. The product of maximum and width is at most twice the integrated
cross section. -/
theorem C158_voigt {k : PhysConst} {init inter : Level} {final : Option Level} {amu T w : ℝ} {r : Reso}
    (hr : mkVoigt k init inter amu T final = .ok r) (ha : 0 < amu) (hT : 0 ≤ T) (hE : init.exc < inter.exc)
    (hw : inter.width = .ok w) (hpos : 0 < w) (hI : 0 < r.ics) (σ : ℝ → ℝ) (hσ : r.HasSigma σ) :
    ∃ f, HasFWHM σ r.er f ∧ (T = 0 → f = w) ∧ f * σ r.er ≤ 2 * r.ics ∧
      (0 < T → w < f ∧ 2 * Real.sqrt (Real.log 2) * (r.er * Real.sqrt (2 * k.kB * 1e-6 * T / (amu * k.u))) < f) := by
  rw [sigma_unique hσ (voigt_sigma hr ha hT hE hw hpos)]
  have her := (mkVoigt_same hr hr).2.2
  have hpe : 0 < r.er := by rw [her]; linarith
  have hg : 0 < w / 2 := by linarith
  have hl := sqrt_log_two_pos
  rcases hT.eq_or_lt with rfl | hT'
  · have h0 : dopplerWidth k amu 0 r.er = 0 := by simp [dopplerWidth]
    simp only [h0, zero_div, coldVoigt_zero]
    have h1 := (cauchy_peaked r.er hg).fwhm_of hg (by
      have := cauchy_at r.er hg 1
      rw [one_mul] at this
      rw [this]; norm_num)
    have e : 2 * (w / 2) = w := by ring
    rw [e] at h1
    refine ⟨w, h1.const_mul hI, fun _ => rfl, ?_, fun h => absurd h (lt_irrefl _)⟩
    have hpi := Real.pi_gt_three
    have : w * cauchyPdf r.er (w / 2) r.er = 2 / Real.pi := by
      unfold cauchyPdf; rw [sub_self, zero_div]; field_simp; ring
    have h2 : 2 / Real.pi ≤ 2 := by rw [div_le_iff₀ (by linarith)]; linarith
    calc w * (r.ics * cauchyPdf r.er (w / 2) r.er) = r.ics * (w * cauchyPdf r.er (w / 2) r.er) := by ring
      _ ≤ r.ics * 2 := by rw [this]; exact mul_le_mul_of_nonneg_left h2 hI.le
      _ = _ := by ring
  · have hD := dopplerWidth_pos k ha hT' hpe
    have hs : 0 < dopplerWidth k amu T r.er / Real.sqrt 2 := by positivity
    simp only [← coldVoigt_eq r.er _ (w / 2) hs]
    have hpk := voigt_peaked r.er hs hg
    have hc := voigt_continuous r.er hs hg
    have hp0 := voigt_pos r.er hs hg r.er
    have hn := voigt_wider_norm r.er hs hg
    have hcw := voigt_wider_cauchy r.er hs hg
    have hbel := hpk.below_half (voigt_integrable r.er hs hg) (voigt_integral r.er hs hg) (fun x => (voigt_pos r.er hs hg x).le) hp0
    have hlt : w / 2 < 1 / voigtDensity r.er (dopplerWidth k amu T r.er / Real.sqrt 2) (w / 2) r.er := by
      by_contra hle
      have := hpk.le_of_abs (d := 1 / voigtDensity r.er (dopplerWidth k amu T r.er / Real.sqrt 2) (w / 2) r.er) (e := w / 2) (by
        rw [abs_of_pos (by positivity), abs_of_pos hg]; exact not_lt.1 hle)
      linarith
    obtain ⟨f, hf, -, hfle⟩ := hpk.fwhm_between hc hg hcw.le hbel hlt.le
    have key : ∀ x, 0 < x → voigtDensity r.er (dopplerWidth k amu T r.er / Real.sqrt 2) (w / 2) r.er / 2 <
        voigtDensity r.er (dopplerWidth k amu T r.er / Real.sqrt 2) (w / 2) (r.er + x) → 2 * x < f := fun x hx hv => by
      have := ((hf.2 (r.er + x)).2.1 hv)
      rw [add_sub_cancel_left, abs_of_pos hx] at this
      linarith
    refine ⟨f, hf.const_mul hI, fun h => absurd h hT'.ne', ?_, fun _ => ⟨?_, ?_⟩⟩
    · have := mul_le_mul_of_nonneg_right hfle hp0.le
      have e : 2 * (1 / voigtDensity r.er (dopplerWidth k amu T r.er / Real.sqrt 2) (w / 2) r.er) *
          voigtDensity r.er (dopplerWidth k amu T r.er / Real.sqrt 2) (w / 2) r.er = 2 := by field_simp
      rw [e] at this
      have := mul_le_mul_of_nonneg_left this hI.le
      linarith
    · have := key _ hg hcw
      linarith
    · rw [doppler_half] at hn
      have := key _ (by positivity) hn
      rw [← mul_assoc] at this
      exact this

/-- C158 is false of the code for pseudo-Voigt resonances: the full width at half maximum is smaller than the width Γ of the formula of
Thompson et al. (a fifth root) for every positive width of the level, and half of the width of the level at temperature zero. -/
theorem C158_refuted {k : PhysConst} {init inter : Level} {final : Option Level} {amu T w : ℝ} {r : Reso}
    (hr : mkPseudoVoigt k init inter amu T final = .ok r) (ha : 0 < amu) (hT : 0 ≤ T) (hE : init.exc < inter.exc)
    (hw : inter.width = .ok w) (hpos : 0 < w) (hI : 0 < r.ics) (σ : ℝ → ℝ) (hσ : r.HasSigma σ) {g G : ℝ}
    (hg : g = 2 * Real.sqrt (Real.log 2) * (r.er * Real.sqrt (2 * k.kB * 1e-6 * T / (amu * k.u)))) (hG0 : 0 ≤ G)
    (hG : G ^ 5 = g ^ 5 + 2.69269 * g ^ 4 * w + 2.42843 * g ^ 3 * w ^ 2 + 4.47163 * g ^ 2 * w ^ 3 + 0.07842 * g * w ^ 4 + w ^ 5) :
    ∃ f, HasFWHM σ r.er f ∧ G / 2 ≤ f ∧ f < G ∧ (T = 0 → G = w ∧ f = w / 2) := by
  obtain ⟨r0, hr0⟩ : ∃ r0, mkResonance k init inter final noRecoil = .ok r0 := by
    obtain ⟨r0, d, ps, hr0, -, -⟩ := build_inv (s := .pseudoVoigt amu T) hr
    exact ⟨r0, hr0⟩
  have her := (mkResonance_inv hr0).1
  have hpe : 0 < r0.er := by rw [her]; unfold noRecoil; linarith
  simp only [mkPseudoVoigt, hr0, hw, getDopplerWidth_ok k ha.ne', Bind.bind, Except.bind, Except.ok.injEq] at hr
  subst hr
  have hd : 0 ≤ dopplerWidth k amu T r0.er := by unfold dopplerWidth; positivity
  have hok : PV.Ok w (dopplerWidth k amu T r0.er) := ⟨hpos.le, hd, Or.inl hpos⟩
  rw [sigma_unique hσ (pv_sigma hok rfl rfl)]
  simp only at hI hg ⊢
  have hgd : g = 2 * Real.sqrt (Real.log 2) * dopplerWidth k amu T r0.er := hg
  have hg0 : 0 ≤ g := by rw [hgd]; exact hok.g0
  have hGe : (mkPV r0.er w (dopplerWidth k amu T r0.er)).bigGamma = G := by
    show pvGamma (2 * Real.sqrt (Real.log 2) * dopplerWidth k amu T r0.er) w = G
    rw [← hgd]
    exact pvGamma_unique hg0 hpos.le hG0 hG
  obtain ⟨h1, h2⟩ := pv_half_values (er := r0.er) hok
  have hη : 0 < (mkPV r0.er w (dopplerWidth k amu T r0.er)).eta * cauchyPdf r0.er (mkPV r0.er w (dopplerWidth k amu T r0.er)).cauchyScale r0.er := by
    refine mul_pos ?_ (cauchyPdf_pos hok.cauchyScale_pos _ _)
    show 0 < pvEta w (mkPV r0.er w (dopplerWidth k amu T r0.er)).bigGamma
    rw [hGe, pvEta_ratio]
    have hwG : w ≤ G := by
      rw [← hGe]
      exact pvGamma_ge_right hok.g0 hpos.le
    have q0 : 0 < w / G := div_pos hpos (hpos.trans_le hwG)
    have q1 : w / G ≤ 1 := (div_le_one (hpos.trans_le hwG)).2 hwG
    generalize w / G = q at *
    nlinarith [mul_pos q0 q0, mul_pos (mul_pos q0 q0) q0]
  rw [hGe] at h1 h2
  have hGp : 0 < G := by rw [← hGe]; exact hok.gamma_pos
  have hpk := hok.peaked (er := r0.er)
  have hcont : Continuous (mkPV r0.er w (dopplerWidth k amu T r0.er)).pdfR := (hok.good (er := r0.er)).cont
  obtain ⟨f, hf, hf1, hf2⟩ := hpk.fwhm_between hcont (x := G / 4) (y := G / 2) (by linarith) h2 (by rw [h1]; linarith) (by linarith)
  have hlt : f < G := by
    rcases hf2.lt_or_eq with h | h
    · linarith
    · exfalso
      have e := (hf.2 (r0.er + G / 2)).1.2 (by rw [add_sub_cancel_left, abs_of_pos (by linarith), h]; ring)
      rw [e] at h1
      linarith
  refine ⟨f, hf.const_mul hI, by linarith, hlt, ?_⟩
  rintro rfl
  have hgz : g = 0 := by rw [hg]; simp
  have hGw : G = w := by
    rw [← hGe]
    show pvGamma (2 * Real.sqrt (Real.log 2) * dopplerWidth k amu 0 r0.er) w = w
    rw [← hgd, hgz]
    exact pvGamma_unique le_rfl hpos.le hpos.le (by ring)
  refine ⟨hGw, ?_⟩
  subst hGw
  -- the mixing parameter is one
  have hη1 : (mkPV r0.er G (dopplerWidth k amu 0 r0.er)).eta = 1 := by
    show pvEta G (mkPV r0.er G (dopplerWidth k amu 0 r0.er)).bigGamma = 1
    rw [hGe, pvEta_ratio, div_self hGp.ne']
    norm_num
  have es : (mkPV r0.er G (dopplerWidth k amu 0 r0.er)).cauchyScale = G / 4 := by
    have : (mkPV r0.er G (dopplerWidth k amu 0 r0.er)).cauchyScale = (mkPV r0.er G (dopplerWidth k amu 0 r0.er)).bigGamma / 4 := by
      simp only [PV.cauchyScale, mkPV]; ring
    rw [this, hGe]
  have hfun : (mkPV r0.er G (dopplerWidth k amu 0 r0.er)).pdfR = cauchyPdf r0.er (G / 4) := by
    funext E
    have e0 : (mkPV r0.er G (dopplerWidth k amu 0 r0.er)).er = r0.er := rfl
    simp only [PV.pdfR, hη1, es, e0]; ring
  rw [hfun] at hf
  have h4 : 0 < G / 4 := by linarith
  have h1 := (cauchy_peaked r0.er h4).fwhm_of h4 (by
    have := cauchy_at r0.er h4 1
    rw [one_mul] at this
    rw [this]; norm_num)
  have := hf.unique h1
  linarith

/-- C158 holds for pseudo-Voigt resonances up to twice the width of the level: the full width at half maximum differs from the formula by
less, and is at most the sum of the two widths. -/
theorem C158_partial {k : PhysConst} {init inter : Level} {final : Option Level} {amu T w : ℝ} {r : Reso}
    (hr : mkPseudoVoigt k init inter amu T final = .ok r) (ha : 0 < amu) (hT : 0 ≤ T) (hE : init.exc < inter.exc)
    (hw : inter.width = .ok w) (hpos : 0 < w) (hI : 0 < r.ics) (σ : ℝ → ℝ) (hσ : r.HasSigma σ) {g G : ℝ}
    (hg : g = 2 * Real.sqrt (Real.log 2) * (r.er * Real.sqrt (2 * k.kB * 1e-6 * T / (amu * k.u)))) (hG0 : 0 ≤ G)
    (hG : G ^ 5 = g ^ 5 + 2.69269 * g ^ 4 * w + 2.42843 * g ^ 3 * w ^ 2 + 4.47163 * g ^ 2 * w ^ 3 + 0.07842 * g * w ^ 4 + w ^ 5) :
    ∃ f, HasFWHM σ r.er f ∧ G - 2 * w ≤ f ∧ g - 2 * w ≤ f ∧ f ≤ g + w := by
  obtain ⟨f, hf, h1, h2, -⟩ := C158_refuted hr ha hT hE hw hpos hI σ hσ hg hG0 hG
  refine ⟨f, hf, ?_⟩
  obtain ⟨r0, hr0⟩ : ∃ r0, mkResonance k init inter final noRecoil = .ok r0 := by
    obtain ⟨r0, d, ps, hr0, -, -⟩ := build_inv (s := .pseudoVoigt amu T) hr
    exact ⟨r0, hr0⟩
  have her := (mkResonance_inv hr0).1
  have hpe : 0 < r0.er := by rw [her]; unfold noRecoil; linarith
  simp only [mkPseudoVoigt, hr0, hw, getDopplerWidth_ok k ha.ne', Bind.bind, Except.bind, Except.ok.injEq] at hr
  subst hr
  have hd : 0 ≤ dopplerWidth k amu T r0.er := by unfold dopplerWidth; positivity
  have hok : PV.Ok w (dopplerWidth k amu T r0.er) := ⟨hpos.le, hd, Or.inl hpos⟩
  rw [sigma_unique hσ (pv_sigma hok rfl rfl)] at hf
  simp only at hI hg hf
  have hgd : g = 2 * Real.sqrt (Real.log 2) * dopplerWidth k amu T r0.er := hg
  have hg0 : 0 ≤ g := by rw [hgd]; exact hok.g0
  have hGe : (mkPV r0.er w (dopplerWidth k amu T r0.er)).bigGamma = G := by
    show pvGamma (2 * Real.sqrt (Real.log 2) * dopplerWidth k amu T r0.er) w = G
    rw [← hgd]
    exact pvGamma_unique hg0 hpos.le hG0 hG
  have hle := hok.gamma_le (er := r0.er)
  have hgG : g ≤ G := by
    have := pvGamma_ge_left hg0 hpos.le
    rwa [pvGamma_unique hg0 hpos.le hG0 hG] at this
  rw [hGe, ← hgd] at hle
  suffices h : G - 2 * w ≤ f from ⟨h, by linarith, by linarith⟩
  by_cases hq : G ≤ 4 * w
  · linarith
  push Not at hq
  have hGp : 0 < G := by linarith
  by_contra hlt
  push Not at hlt
  -- the value at the distance G / 2 - w is still above one half
  have key : (mkPV r0.er w (dopplerWidth k amu T r0.er)).pdfR r0.er / 2 <
      (mkPV r0.er w (dopplerWidth k amu T r0.er)).pdfR (r0.er + (G / 2 - w)) := pv_half_near hok hGe hpos hq
  have h3 := (mul_lt_mul_iff_right₀ hI).2 key
  have h4 := (hf.2 (r0.er + (G / 2 - w))).2.1 (by simp only; linarith)
  rw [add_sub_cancel_left, abs_of_pos (by linarith)] at h4
  linarith

/-- The hypotheses are met. -/
example : ∃ v p b g G, mkVoigt exConst exGround exMid 11 293 none = .ok v ∧ mkPseudoVoigt exConst exGround exMid 11 293 none = .ok p ∧
    mkBreitWigner exConst exGround exMid none = .ok b ∧ mkGauss exConst exGround exMid 11 293 none = .ok g ∧
    exGround.exc < exMid.exc ∧ exMid.width = .ok 1e-5 ∧ 0 < v.ics ∧ 0 < p.ics ∧ 0 < b.ics ∧ 0 < g.ics ∧ 0 ≤ G ∧
    G ^ 5 = pvBase (2 * Real.sqrt (Real.log 2) * (p.er * Real.sqrt (2 * exConst.kB * 1e-6 * 293 / (11 * exConst.u)))) 1e-5 := by
  obtain ⟨r, hr, he, hI⟩ := exMid_resonance
  set x := 2 * Real.sqrt (Real.log 2) * (r.er * Real.sqrt (2 * exConst.kB * 1e-6 * 293 / (11 * exConst.u))) with hx
  have hx0 : 0 ≤ x := by rw [hx, he]; positivity
  have hb0 : 0 ≤ pvBase x 1e-5 := by unfold pvBase; positivity
  refine ⟨{ r with dist := (mkPV r.er 1e-5 (dopplerWidth exConst 11 293 r.er)).toSemiDist, params := [] },
    { r with dist := (mkPV r.er 1e-5 (dopplerWidth exConst 11 293 r.er)).toDist, params := [] },
    { r with dist := cauchyDist, params := [r.er, 0.5 * 1e-5] },
    { r with dist := normDist, params := [r.er, dopplerWidth exConst 11 293 r.er / Real.sqrt 2] }, pvBase x 1e-5 ^ (1 / 5 : ℝ),
    ?_, ?_, ?_, ?_, by norm_num [exGround, exMid, groundState, state], exMid_width, hI, hI, hI, hI, by positivity, ?_⟩
  · simp [mkVoigt, mkPseudoVoigt, hr, exMid_width, getDopplerWidth_ok exConst (show (11 : ℝ) ≠ 0 by norm_num), Bind.bind, Except.bind]
  · simp [mkPseudoVoigt, hr, exMid_width, getDopplerWidth_ok exConst (show (11 : ℝ) ≠ 0 by norm_num), Bind.bind, Except.bind]
  · simp [mkBreitWigner, hr, exMid_width, Bind.bind, Except.bind]
  · simp [mkGauss, hr, getDopplerWidth_ok exConst (show (11 : ℝ) ≠ 0 by norm_num), Bind.bind, Except.bind]
  · rw [← Real.rpow_natCast, ← Real.rpow_mul hb0, show (1 / 5 : ℝ) * ((5 : ℕ) : ℝ) = 1 by norm_num, Real.rpow_one]

end Ries
