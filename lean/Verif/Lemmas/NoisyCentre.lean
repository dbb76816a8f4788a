import Verif.Lemmas.NoisySearchPV

/-! # The search for quantiles near the median -/

namespace Ries

namespace PV
variable {w d : ℝ} {er : ℝ}

/-- the density near the centre -/
theorem Ok.pdf_centre (h : Ok w d) {x δ : ℝ} (hx : 16 * ((x - er) / (mkPV er w d).bigGamma) ^ 2 ≤ δ) :
    (1 - δ) * (mkPV er w d).pdfR er ≤ (mkPV er w d).pdfR x := by
  have hG := h.gamma_pos (er := er)
  obtain ⟨e1, e2⟩ := scales er w d
  obtain ⟨b1, b2⟩ := sqrt_bounds
  obtain ⟨η0, η1⟩ := h.eta_bounds (er := er)
  have hδ : 0 ≤ δ := le_trans (by positivity) hx
  have n1 : (1 - δ) * normPdf er (mkPV er w d).normScale er ≤ normPdf er (mkPV er w d).normScale x := by
    have hs := h.normScale_pos (er := er)
    have hq : ((x - er) / (mkPV er w d).normScale) ^ 2 / 2 ≤ δ := by
      rw [e1, div_div_eq_mul_div, mul_comm (x - er), mul_div_assoc, mul_pow, mul_pow]
      have : Real.sqrt (2 * Real.log 2) ^ 2 ≤ 1.4 ^ 2 := pow_le_pow_left₀ (by positivity) b2 2
      have := mul_le_mul_of_nonneg_right this (sq_nonneg ((x - er) / (mkPV er w d).bigGamma))
      nlinarith [sq_nonneg ((x - er) / (mkPV er w d).bigGamma)]
    unfold normPdf
    rw [sub_self, zero_div, show -(0 : ℝ) ^ 2 / 2 = 0 by norm_num, Real.exp_zero, mul_div_assoc', mul_one]
    refine div_le_div_of_nonneg_right ?_ (by positivity)
    have := Real.add_one_le_exp (-((x - er) / (mkPV er w d).normScale) ^ 2 / 2)
    linarith
  have n2 : (1 - δ) * cauchyPdf er (mkPV er w d).cauchyScale er ≤ cauchyPdf er (mkPV er w d).cauchyScale x := by
    have hs := h.cauchyScale_pos (er := er)
    have hq : ((x - er) / (mkPV er w d).cauchyScale) ^ 2 ≤ δ := by
      rw [e2, div_div_eq_mul_div, mul_comm (x - er), mul_div_assoc, mul_pow]
      norm_num at hx ⊢
      linarith
    have hpi := Real.pi_pos
    unfold cauchyPdf
    rw [sub_self, zero_div, show (1 : ℝ) + 0 ^ 2 = 1 by norm_num, mul_one]
    rw [mul_one_div, div_le_div_iff₀ (by positivity) (by positivity)]
    have hz := sq_nonneg ((x - er) / (mkPV er w d).cauchyScale)
    generalize ((x - er) / (mkPV er w d).cauchyScale) ^ 2 = z at *
    have : (1 - δ) * (1 + z) ≤ 1 := by nlinarith
    have hps : 0 < Real.pi * (mkPV er w d).cauchyScale := by positivity
    nlinarith
  have e : ∀ y, (mkPV er w d).pdfR y = (1 - (mkPV er w d).eta) * normPdf er (mkPV er w d).normScale y
      + (mkPV er w d).eta * cauchyPdf er (mkPV er w d).cauchyScale y := fun _ => rfl
  rw [e, e]
  nlinarith

/-- the peak density -/
theorem Ok.peak_ge (h : Ok w d) : 0.93 / (mkPV er w d).bigGamma ≤ (mkPV er w d).pdfR er := by
  obtain ⟨p1, -, p2, -⟩ := h.peaks (er := er)
  obtain ⟨η0, η1⟩ := h.eta_bounds (er := er)
  show _ ≤ (1 - (mkPV er w d).eta) * normPdf er (mkPV er w d).normScale er
      + (mkPV er w d).eta * cauchyPdf er (mkPV er w d).cauchyScale er
  nlinarith

/-- one exact step from a point near the centre for a quantile near the median -/
theorem Ok.centre_step (h : Ok w d) (hΓ : 1e-7 ≤ 2 * Real.sqrt (Real.log 2) * d + w) {q x : ℝ}
    (hq : |q - 1 / 2| * (2 * Real.sqrt (Real.log 2) * d + w) ≤ 1e-9) (hx : |x - er| ≤ 2e-9) :
    0.97 * (mkPV er w d).pdfR er ≤ (mkPV er w d).pdfR x ∧
    |x - ((mkPV er w d).cdfR x - q) / (mkPV er w d).pdfR x - er| ≤ 1.3e-9 := by
  have hG := h.gamma_pos (er := er)
  have hle := h.gamma_le (er := er)
  have hGh := h.gamma_half (er := er)
  have hG5 : 5e-8 ≤ (mkPV er w d).bigGamma := by linarith
  have hden : ∀ y, |y - er| ≤ 2e-9 → 0.974 * (mkPV er w d).pdfR er ≤ (mkPV er w d).pdfR y := by
    intro y hy
    have := h.pdf_centre (er := er) (x := y) (δ := 0.026) (by
      have h1 : |(y - er) / (mkPV er w d).bigGamma| ≤ 0.04 := by
        rw [abs_div, abs_of_pos hG, div_le_iff₀ hG]
        linarith
      rw [← sq_abs]
      have := pow_le_pow_left₀ (abs_nonneg _) h1 2
      norm_num at this ⊢
      linarith)
    norm_num at this ⊢
    exact this
  have hgood := h.good (er := er)
  have hpk := h.peaked (er := er)
  have hhalf := h.half (er := er)
  have hP := h.peak_ge (er := er)
  have hxp := hden x hx
  have hq' : |q - 1 / 2| * (mkPV er w d).bigGamma ≤ 1e-9 := (mul_le_mul_of_nonneg_left hle (abs_nonneg _)).trans hq
  rw [div_le_iff₀ hG] at hP
  obtain ⟨ξ, hξ, e⟩ : ∃ ξ, |ξ - er| ≤ 2e-9 ∧ (mkPV er w d).cdfR x - 1 / 2 = (mkPV er w d).pdfR ξ * (x - er) := by
    rcases lt_trichotomy x er with hlt | rfl | hgt
    · obtain ⟨ξ, h1, h2, e⟩ := hgood.slope hlt
      refine ⟨ξ, ?_, by rw [hhalf] at e; linarith⟩
      rw [abs_le] at hx ⊢
      constructor <;> linarith
    · exact ⟨x, hx, by rw [hhalf]; ring⟩
    · obtain ⟨ξ, h1, h2, e⟩ := hgood.slope hgt
      refine ⟨ξ, ?_, by rw [hhalf] at e; linarith⟩
      rw [abs_le] at hx ⊢
      constructor <;> linarith
  have hξp := hden ξ hξ
  have hξ1 := hpk.le_peak ξ
  have hx1 := hpk.le_peak x
  have hp0 := hgood.pos x
  generalize (mkPV er w d).pdfR er = P at *
  generalize (mkPV er w d).pdfR ξ = pξ at *
  generalize (mkPV er w d).pdfR x = px at *
  generalize (mkPV er w d).cdfR x = Fx at *
  generalize (mkPV er w d).bigGamma = G at *
  refine ⟨by linarith, ?_⟩
  have hP0 : 0 < P := lt_of_lt_of_le hp0 hx1
  have e2 : x - (Fx - q) / px - er = ((px - pξ) * (x - er) + (q - 1 / 2)) / px := by
    field_simp
    linear_combination -2 * e
  rw [e2, abs_div, abs_of_pos hp0, div_le_iff₀ hp0]
  have t1 := abs_add_le ((px - pξ) * (x - er)) (q - 1 / 2)
  rw [abs_mul] at t1
  have t2 : |px - pξ| ≤ 0.026 * P := abs_le.2 ⟨by linarith, by linarith⟩
  have t3 : |px - pξ| * |x - er| ≤ 0.026 * P * 2e-9 := mul_le_mul t2 hx (abs_nonneg _) (by positivity)
  have t4 : 0.93 * |q - 1 / 2| ≤ P * 1e-9 := by
    have := mul_le_mul_of_nonneg_right hP (abs_nonneg (q - 1 / 2))
    nlinarith
  norm_num at t3 t4 ⊢
  linarith

end PV

section
variable {fl Fc pc : ℝ → ℝ} {u η ε w d er : ℝ}

/-- what holds for a component whose quantile is close to 1/2 -/
def NearCentre (Γ er q x : ℝ) : Prop := 0 ≤ q ∧ q ≤ 1 ∧ |q - 1 / 2| * Γ ≤ 1e-9 ∧ |x - er| ≤ 2e-9

theorem SearchNoise.centre (hok : PV.Ok w d) (hε : 0 < ε) (hε1 : ε ≤ 1 / 2)
    (h : SearchNoise fl Fc pc (mkPV er w d).cdfR (mkPV er w d).pdfR er u η ((2 * Real.sqrt (Real.log 2) * d + w) / ε))
    (hΓ : 1e-7 ≤ 2 * Real.sqrt (Real.log 2) * d + w)
    (hn : u * (|er| + 2 * (2 * Real.sqrt (Real.log 2) * d + w) / ε) + 3 * (η + u) * (2 * Real.sqrt (Real.log 2) * d + w) ≤ 5e-11 * ε ^ 2)
    {q x : ℝ} (ht : NearCentre (2 * Real.sqrt (Real.log 2) * d + w) er q x) :
    pc x ≠ 0 ∧ |fl (fl (Fc x - q) / pc x)| ≤ 1.4e-8 ∧ |fl (x - fl (fl (Fc x - q) / pc x)) - x| ≤ 1.4e-8 ∧
    NearCentre (2 * Real.sqrt (Real.log 2) * d + w) er q (fl (x - fl (fl (Fc x - q) / pc x))) := by
  obtain ⟨q0, q1, hq, hx⟩ := ht
  obtain ⟨s1, s2⟩ := hok.centre_step (er := er) hΓ hq hx
  have hG := hok.gamma_pos (er := er)
  have hle := hok.gamma_le (er := er)
  have hP := hok.peak_ge (er := er)
  have hp0 := hok.good.pos (F := (mkPV er w d).cdfR) x
  have hu := h.u0
  have hη := h.η0
  have hZ : 2.2 * (η + u) / (mkPV er w d).pdfR x ≤ 1e-10 := by
    rw [div_le_iff₀ hp0]
    rw [div_le_iff₀ hG] at hP
    generalize (mkPV er w d).pdfR er = P at *
    generalize (mkPV er w d).pdfR x = px at *
    generalize (mkPV er w d).bigGamma = G at *
    generalize 2 * Real.sqrt (Real.log 2) * d + w = Γ at *
    have a0 : 0 ≤ u * (|er| + 2 * Γ / ε) := by positivity
    have h1 : 3 * (η + u) * G ≤ 5e-11 * 0.25 := by
      have : (η + u) * G ≤ (η + u) * Γ := mul_le_mul_of_nonneg_left hle (by positivity)
      nlinarith
    have h2 : 0.9 ≤ px * G := by nlinarith
    have h3 : 2.2 * (η + u) * G ≤ 1e-10 * px * G := by nlinarith
    exact le_of_mul_le_mul_right h3 hG
  have ha : 0 ≤ u * (|er| + 2 * ((2 * Real.sqrt (Real.log 2) * d + w) / ε)) ∧
      u * (|er| + 2 * ((2 * Real.sqrt (Real.log 2) * d + w) / ε)) ≤ 1e-10 := by
    generalize 2 * Real.sqrt (Real.log 2) * d + w = Γ at *
    rw [show 2 * Γ / ε = 2 * (Γ / ε) by ring] at hn
    have : 0 ≤ Γ / ε := by positivity
    have : 0 ≤ (η + u) * Γ := mul_nonneg (by linarith) (by linarith)
    exact ⟨by positivity, by nlinarith⟩
  have hL : 2e-7 ≤ (2 * Real.sqrt (Real.log 2) * d + w) / ε := by
    rw [le_div_iff₀ hε]
    nlinarith
  have h1 := h.dp (x := x) (q := q) (by linarith) q0 q1
  have h2 := h.noisy (x := x) (q := q) (by linarith) q0 q1 (by linarith) (by linarith)
  unfold NoisyStep at h2
  have h3 : |((mkPV er w d).cdfR x - q) / (mkPV er w d).pdfR x| ≤ 3.3e-9 := by
    have := abs_sub (x - er) (x - ((mkPV er w d).cdfR x - q) / (mkPV er w d).pdfR x - er)
    rw [show x - er - (x - ((mkPV er w d).cdfR x - q) / (mkPV er w d).pdfR x - er)
      = ((mkPV er w d).cdfR x - q) / (mkPV er w d).pdfR x by ring] at this
    norm_num at *
    linarith
  refine ⟨(h.pc_pos (by linarith)).ne', ?_, ?_, q0, q1, hq, ?_⟩
  · have := abs_add_le (fl (fl (Fc x - q) / pc x) - ((mkPV er w d).cdfR x - q) / (mkPV er w d).pdfR x)
      (((mkPV er w d).cdfR x - q) / (mkPV er w d).pdfR x)
    rw [sub_add_cancel] at this
    norm_num at *
    linarith
  · generalize fl (x - fl (fl (Fc x - q) / pc x)) = x' at *
    generalize ((mkPV er w d).cdfR x - q) / (mkPV er w d).pdfR x = t at *
    have := abs_sub (x' - (x - t)) t
    rw [show x' - (x - t) - t = x' - x by ring] at this
    norm_num at *
    linarith [ha.2]
  · generalize fl (x - fl (fl (Fc x - q) / pc x)) = x' at *
    generalize ((mkPV er w d).cdfR x - q) / (mkPV er w d).pdfR x = t at *
    have := abs_add_le (x' - (x - t)) (x - t - er)
    rw [show x' - (x - t) + (x - t - er) = x' - er by ring] at this
    norm_num at *
    linarith [ha.2]

/-- the state of a component after `k` steps -/
noncomputable def Tracked (fl Fc : ℝ → ℝ) (er w d u η ε : ℝ) (k : ℕ) (q x : ℝ) : Prop :=
  OnTrack fl Fc (mkPV er w d).cdfR (mkPV er w d).pdfR er u η ((2 * Real.sqrt (Real.log 2) * d + w) / ε)
    (0.465 * ε ^ 2 / (mkPV er w d).bigGamma) (1.28 / (mkPV er w d).bigGamma) k q x ∨
  NearCentre (2 * Real.sqrt (Real.log 2) * d + w) er q x

theorem SearchNoise.tracked (hok : PV.Ok w d) (hε : 0 < ε) (hε1 : ε ≤ 1 / 2)
    (h : SearchNoise fl Fc pc (mkPV er w d).cdfR (mkPV er w d).pdfR er u η ((2 * Real.sqrt (Real.log 2) * d + w) / ε))
    (hΓ : 1e-7 ≤ 2 * Real.sqrt (Real.log 2) * d + w)
    (hn : u * (|er| + 2 * (2 * Real.sqrt (Real.log 2) * d + w) / ε) + 3 * (η + u) * (2 * Real.sqrt (Real.log 2) * d + w) ≤ 5e-11 * ε ^ 2)
    (hG : 2 * Real.sqrt (Real.log 2) * d + w ≤ 1e20 * ε ^ 4) {k : ℕ} {q x : ℝ} (ht : Tracked fl Fc er w d u η ε k q x) :
    pc x ≠ 0 ∧ Tracked fl Fc er w d u η ε (k + 1) q (fl (x - fl (fl (Fc x - q) / pc x))) ∧
    (k = 49 → |fl (fl (Fc x - q) / pc x)| ≤ 1.4e-8 ∧ |fl (x - fl (fl (Fc x - q) / pc x)) - x| ≤ 1.4e-8) := by
  rcases ht with ht | ht
  · obtain ⟨W0, W1⟩ := hok.trackW_le (er := er) h.u0 h.η0 hε hn
    have hB := hok.trackB_le (er := er) h.u0 h.η0 hε hn hG
    have hG0 := hok.gamma_pos (er := er)
    have hWL : trackW er u η ((2 * Real.sqrt (Real.log 2) * d + w) / ε) (0.465 * ε ^ 2 / (mkPV er w d).bigGamma)
        (1.28 / (mkPV er w d).bigGamma) ≤ (2 * Real.sqrt (Real.log 2) * d + w) / ε := by
      refine W1.trans ?_
      rw [le_div_iff₀ hε]
      nlinarith
    obtain ⟨t1, t2, t3, t4⟩ := h.track hok.peaked hWL W0 (by positivity) (by positivity) ht
    refine ⟨t1, .inl t4, ?_⟩
    rintro rfl
    exact ⟨t2.trans hB, t3.trans hB⟩
  · obtain ⟨t1, t2, t3, t4⟩ := h.centre hok hε hε1 hΓ hn ht
    exact ⟨t1, .inr t4, fun _ => ⟨t2, t3⟩⟩

theorem tracked_start (hok : PV.Ok w d) (hu : 0 ≤ u) (hη : 0 ≤ η) (hε : 0 < ε)
    (hn : u * (|er| + 2 * (2 * Real.sqrt (Real.log 2) * d + w) / ε) + 3 * (η + u) * (2 * Real.sqrt (Real.log 2) * d + w) ≤ 5e-11 * ε ^ 2)
    {q : ℝ} (h0 : ε ≤ q) (h1 : q ≤ 1 - ε) : Tracked fl Fc er w d u η ε 0 q er := by
  rcases le_or_gt 1e-9 (|q - 1 / 2| * (2 * Real.sqrt (Real.log 2) * d + w)) with hfar | hnear
  · exact .inl (hok.track hu hη hε hn ⟨h0, h1, .inr hfar⟩)
  · refine .inr ⟨by linarith, by linarith, hnear.le, ?_⟩
    simp
    norm_num

/-- all states remain in the searched region -/
theorem Tracked.near (hok : PV.Ok w d) (hu : 0 ≤ u) (hη : 0 ≤ η) (hε : 0 < ε) (hε1 : ε ≤ 1 / 2)
    (hΓ : 1e-7 ≤ 2 * Real.sqrt (Real.log 2) * d + w)
    (hn : u * (|er| + 2 * (2 * Real.sqrt (Real.log 2) * d + w) / ε) + 3 * (η + u) * (2 * Real.sqrt (Real.log 2) * d + w) ≤ 5e-11 * ε ^ 2)
    {k : ℕ} {q x : ℝ} (ht : Tracked fl Fc er w d u η ε k q x) : |x - er| ≤ (2 * Real.sqrt (Real.log 2) * d + w) / ε := by
  have hL : 2e-7 ≤ (2 * Real.sqrt (Real.log 2) * d + w) / ε := by
    rw [le_div_iff₀ hε]
    nlinarith
  obtain ⟨W0, W1⟩ := hok.trackW_le (er := er) hu hη hε hn
  have hWL : trackW er u η ((2 * Real.sqrt (Real.log 2) * d + w) / ε) (0.465 * ε ^ 2 / (mkPV er w d).bigGamma)
      (1.28 / (mkPV er w d).bigGamma) ≤ (2 * Real.sqrt (Real.log 2) * d + w) / ε := by linarith
  rcases ht with (⟨-, rfl, -⟩ | ⟨xs, hs, hI⟩ | ⟨xs, hs, hI⟩) | ⟨-, -, -, hx⟩
  · rw [sub_self, abs_zero]
    linarith
  · exact (SideOk.facts hWL hs hI).1
  · have := (SideOk.facts hWL hs hI).1
    rwa [show 2 * er - x - er = -(x - er) by ring, abs_neg] at this
  · linarith

/-- size of the error of a quantile in terms of the widths -/
theorem PV.Ok.float_error (hok : PV.Ok w d) (hu : 0 ≤ u) (hη : 0 ≤ η) (hε : 0 < ε) (hε1 : ε ≤ 1 / 2)
    (hn : u * (|er| + 2 * (2 * Real.sqrt (Real.log 2) * d + w) / ε) + 3 * (η + u) * (2 * Real.sqrt (Real.log 2) * d + w) ≤ 5e-11 * ε ^ 2)
    {x : ℝ} (hx : |x - er| ≤ (2 * Real.sqrt (Real.log 2) * d + w) / ε) :
    (mkPV er w d).pdfR er * (2.02 * 1.48e-8 + 1.01 * u * |x|) ≤ 3.9e-8 / max w (2 * Real.sqrt (Real.log 2) * d) := by
  have hG := hok.gamma_pos (er := er)
  have h1 : 2 * Real.sqrt (Real.log 2) * d ≤ (mkPV er w d).bigGamma := pvGamma_ge_left hok.g0 hok.w0
  have h2 : w ≤ (mkPV er w d).bigGamma := pvGamma_ge_right hok.g0 hok.w0
  have hle := hok.gamma_le (er := er)
  have hpeak : (mkPV er w d).pdfR er ≤ 1.28 / (mkPV er w d).bigGamma := by
    obtain ⟨-, p1, -, p2⟩ := hok.peaks (er := er)
    obtain ⟨e0, e1⟩ := hok.eta_bounds (er := er)
    show (1 - (mkPV er w d).eta) * normPdf er (mkPV er w d).normScale er + (mkPV er w d).eta * cauchyPdf er (mkPV er w d).cauchyScale er ≤ _
    nlinarith
  have hmax0 : 0 < max w (2 * Real.sqrt (Real.log 2) * d) := by
    rcases hok.ne with h | h
    · exact lt_max_of_lt_left h
    · refine lt_max_of_lt_right ?_
      have := sqrt_log_two_pos
      positivity
  have hmax : max w (2 * Real.sqrt (Real.log 2) * d) ≤ (mkPV er w d).bigGamma := max_le h2 h1
  generalize (mkPV er w d).pdfR er = P at *
  generalize (mkPV er w d).bigGamma = G at *
  generalize max w (2 * Real.sqrt (Real.log 2) * d) = m at *
  generalize 2 * Real.sqrt (Real.log 2) * d + w = Γ at *
  have hΓ0 : 0 < Γ := hG.trans_le hle
  have h3 : u * |x| ≤ 1.25e-11 := by
    have t := abs_add_le (x - er) er
    rw [sub_add_cancel] at t
    have : u * |x| ≤ u * (|er| + 2 * Γ / ε) := by
      refine mul_le_mul_of_nonneg_left ?_ hu
      have : 0 ≤ Γ / ε := by positivity
      rw [show 2 * Γ / ε = 2 * (Γ / ε) by ring]
      linarith
    have : 0 ≤ (η + u) * Γ := by positivity
    nlinarith
  have h4 : 2.02 * 1.48e-8 + 1.01 * u * |x| ≤ 3.04e-8 := by
    norm_num at h3 ⊢
    linarith
  have h0 : 0 ≤ 2.02 * 1.48e-8 + 1.01 * u * |x| := by positivity
  calc P * (2.02 * 1.48e-8 + 1.01 * u * |x|) ≤ 1.28 / G * 3.04e-8 := mul_le_mul hpeak h4 h0 (by positivity)
    _ ≤ 1.28 / m * 3.04e-8 := by gcongr
    _ = 1.28 * 3.04e-8 / m := by ring
    _ ≤ 3.9e-8 / m := by gcongr; norm_num

end

/-! ## The states of the two loops -/

section
variable {fl Fc pc : ℝ → ℝ}

theorem newtonLoopR_states (T : ℕ → ℝ → ℝ → Prop) (hpc : ∀ k q x, T k q x → pc x ≠ 0)
    (hstep : ∀ k q x, T k q x → T (k + 1) q (fl (x - fl (fl (Fc x - q) / pc x)))) :
    ∀ (fuel k : ℕ) (qs : List ℝ) (st : List NEl), List.Forall₂ (fun q e => e.q = q ∧ T k q e.x) qs st →
      List.Forall₂ (fun q e => e.q = q ∧ ∃ k, T k q e.x) qs (newtonLoopR fl Fc pc fuel st) := by
  intro fuel
  induction fuel with
  | zero =>
    intro k qs st h
    exact h.imp fun q e he => ⟨he.1, k, he.2⟩
  | succ n ih =>
    intro k qs st h
    have hst : List.Forall₂ (fun q e => e.q = q ∧ T (k + 1) q e.x) qs (st.map (NEl.stepR fl Fc pc)) := by
      rw [List.forall₂_map_right_iff]
      refine h.imp ?_
      rintro q e ⟨rfl, he⟩
      unfold NEl.stepR
      rw [if_neg (hpc k _ _ he)]
      exact ⟨rfl, hstep _ _ _ he⟩
    rw [newtonLoopR]
    split_ifs
    · rw [List.forall₂_map_right_iff]
      exact h.imp fun q e he => ⟨he.1, k, he.2⟩
    · rw [List.forall₂_map_right_iff]
      exact h.imp fun q e he => ⟨he.1, k, he.2⟩
    · simp only
      split_ifs
      · exact hst.imp fun q e he => ⟨he.1, k + 1, he.2⟩
      · exact ih (k + 1) qs _ hst

theorem newtonScalarR_state (T : ℕ → ℝ → ℝ → Prop) (q : ℝ)
    (hstep : ∀ k x, T k q x → T (k + 1) q (fl (x - fl (fl (Fc x - q) / pc x)))) :
    ∀ (fuel k : ℕ) (x y : ℝ), T k q x → newtonScalarR fl Fc pc q fuel x = .ok y → ∃ k, T k q y := by
  intro fuel
  induction fuel with
  | zero => intro k x y _ h; cases h
  | succ n ih =>
    intro k x y hT h
    rw [newtonScalarR] at h
    split_ifs at h
    · cases h; exact ⟨k, hT⟩
    · simp only at h
      split_ifs at h
      · cases h; exact ⟨k + 1, hstep _ _ hT⟩
      · exact ih (k + 1) _ _ (hstep _ _ hT) h

/-- numbers returned without a warning are the last points of the loop -/
theorem ppfArrayR_inv {mix : ℝ → Fl} {er : ℝ} {qs xs : List ℝ}
    (h : PV.ppfArrayR fl Fc pc mix er qs = ⟨some (xs.map .fin), false⟩) :
    xs = (newtonLoopR fl Fc pc 50 (qs.map fun q => ⟨q, er, true, true⟩)).map (·.x) := by
  have hinj : Function.Injective (List.map Fl.fin) := List.map_injective_iff.2 fun _ _ h => Fl.fin.inj h
  unfold PV.ppfArrayR newtonArrayR at h
  simp only at h
  generalize newtonLoopR fl Fc pc 50 (qs.map fun q => ⟨q, er, true, true⟩) = st at *
  by_cases h1 : st.any (fun e => !e.nz && e.failed) = true
  · rw [if_pos h1] at h
    simp only at h
    split_ifs at h
    · simp at h
    · simp only [PV.PpfResult.mk.injEq, Option.some.injEq, and_true] at h
      exact (hinj h).symm
  · rw [if_neg h1] at h
    by_cases h2 : st.all (·.failed) = true
    · rw [if_pos h2] at h
      simp at h
    · rw [if_neg h2] at h
      simp only at h
      split_ifs at h
      · simp at h
      · simp only [PV.PpfResult.mk.injEq, Option.some.injEq, and_true] at h
        exact (hinj h).symm

end

end Ries
