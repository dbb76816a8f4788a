import Verif.Spec.FloatSearch
import Verif.Lemmas.NoisySearch

/-! # The search for quantiles of the pseudo-Voigt distribution: size of the disturbance -/

namespace Ries

namespace PV
variable {w d : ℝ} {er : ℝ}

theorem Ok.gamma_half (h : Ok w d) : 2 * Real.sqrt (Real.log 2) * d + w ≤ 2 * (mkPV er w d).bigGamma := by
  have h1 : 2 * Real.sqrt (Real.log 2) * d ≤ (mkPV er w d).bigGamma := pvGamma_ge_left h.g0 h.w0
  have h2 : w ≤ (mkPV er w d).bigGamma := pvGamma_ge_right h.g0 h.w0
  linarith

/-- points whose probability is at least `ε / 2` -/
theorem Ok.near (h : Ok w d) {ε x : ℝ} (hε : 0 < ε) (hε2 : ε ≤ 1 / 2) (hx : x ≤ er) (hF : ε / 2 ≤ (mkPV er w d).cdfR x) :
    er - x ≤ (2 * Real.sqrt (Real.log 2) * d + w) / ε ∧ 0.465 * ε ^ 2 / (mkPV er w d).bigGamma ≤ (mkPV er w d).pdfR x := by
  have hG := h.gamma_pos (er := er)
  have hgood := h.good (er := er)
  have hle := h.gamma_le (er := er)
  constructor
  · by_contra hlt
    push Not at hlt
    set Γ := 2 * Real.sqrt (Real.log 2) * d + w with hΓ
    have hΓ0 : 0 < Γ := hG.trans_le hle
    have hw : w ≤ Γ := by linarith [h.g0]
    have hL : 0 < Γ / ε := by positivity
    have hwin := pv_window er h hL
    rw [← hΓ] at hwin
    have hsum := hgood.add_of_symm er h.peaked.symm (Γ / ε)
    have hmono := hgood.strictMono (show x < er - Γ / ε by linarith)
    have e1 : 2 * (Γ / ε) / Γ = 2 / ε := by field_simp
    rw [e1] at hwin
    have hln := Real.log_two_gt_d9
    have hpi := Real.pi_gt_three
    have t1 : 0.69 * w / (Real.pi * (Γ / ε)) ≤ 0.23 * ε := by
      have : Real.pi * (Γ / ε) = Real.pi * Γ / ε := by ring
      rw [this, div_div_eq_mul_div, div_le_iff₀ (by positivity)]
      have : 3 * Γ ≤ Real.pi * Γ := mul_le_mul_of_nonneg_right hpi.le hΓ0.le
      nlinarith [mul_le_mul_of_nonneg_left this hε.le, mul_le_mul_of_nonneg_left hw hε.le]
    have t2 : Real.exp (-Real.log 2 * (2 / ε) ^ 2) ≤ 0.5 * ε := by
      have hy : 2 / ε ≤ Real.log 2 * (2 / ε) ^ 2 := by
        rw [div_pow, mul_div_assoc', div_le_div_iff₀ hε (by positivity)]
        nlinarith
      have h1 := Real.add_one_le_exp (Real.log 2 * (2 / ε) ^ 2)
      have h2 : 2 / ε ≤ Real.exp (Real.log 2 * (2 / ε) ^ 2) := by linarith
      rw [neg_mul, Real.exp_neg]
      calc (Real.exp (Real.log 2 * (2 / ε) ^ 2))⁻¹ ≤ (2 / ε)⁻¹ := inv_anti₀ (by positivity) h2
        _ = 0.5 * ε := by rw [inv_div]; ring
    linarith
  · have hhalf := h.half (er := er)
    have hF2 : (mkPV er w d).cdfR x ≤ 1 / 2 := by rw [← hhalf]; exact hgood.strictMono.monotone hx
    obtain ⟨xs, e, hp⟩ := h.root (er := er) (ε := ε / 2) (q := (mkPV er w d).cdfR x) (by linarith) hF (by linarith)
    rw [hgood.strictMono.injective e] at hp
    refine le_trans (le_of_eq ?_) hp
    ring

variable {fl Fc pc : ℝ → ℝ} {u η ε : ℝ}

/-- size of the disturbance in terms of the widths -/
theorem Ok.trackW_le (h : Ok w d) (hu : 0 ≤ u) (hη : 0 ≤ η) (hε : 0 < ε)
    (hn : u * (|er| + 2 * (2 * Real.sqrt (Real.log 2) * d + w) / ε) + 3 * (η + u) * (2 * Real.sqrt (Real.log 2) * d + w) ≤ 5e-11 * ε ^ 2) :
    0 ≤ trackW er u η ((2 * Real.sqrt (Real.log 2) * d + w) / ε) (0.465 * ε ^ 2 / (mkPV er w d).bigGamma) (1.28 / (mkPV er w d).bigGamma) ∧
    trackW er u η ((2 * Real.sqrt (Real.log 2) * d + w) / ε) (0.465 * ε ^ 2 / (mkPV er w d).bigGamma) (1.28 / (mkPV er w d).bigGamma)
      ≤ 1.38e-10 := by
  have hG := h.gamma_pos (er := er)
  have hle := h.gamma_le (er := er)
  generalize (mkPV er w d).bigGamma = G at *
  generalize 2 * Real.sqrt (Real.log 2) * d + w = Γ at *
  have hΓ : 0 < Γ := hG.trans_le hle
  unfold trackW
  rw [show 2 * Γ / ε = 2 * (Γ / ε) by ring] at hn
  have ha : 0 ≤ u * (|er| + 2 * (Γ / ε)) := by positivity
  generalize u * (|er| + 2 * (Γ / ε)) = a at *
  constructor
  · positivity
  · have e : (1.28 / G * a + 2.2 * (η + u)) / (0.465 * ε ^ 2 / G) = (1.28 * a + 2.2 * (η + u) * G) / (0.465 * ε ^ 2) := by field_simp
    rw [e, div_le_iff₀ (by positivity)]
    have : (η + u) * G ≤ (η + u) * Γ := mul_le_mul_of_nonneg_left hle (by positivity)
    have : 0 ≤ (η + u) * Γ := by positivity
    nlinarith

/-- the lower side of the search -/
theorem Ok.side (h : Ok w d) (hu : 0 ≤ u) (hη : 0 ≤ η) (hε : 0 < ε) {q : ℝ} (hq : ε ≤ q) (hq2 : q ≤ 1 / 2)
    (hn : u * (|er| + 2 * (2 * Real.sqrt (Real.log 2) * d + w) / ε) + 3 * (η + u) * (2 * Real.sqrt (Real.log 2) * d + w) ≤ 5e-11 * ε ^ 2)
    (hfar : 1e-9 ≤ (1 / 2 - q) * (2 * Real.sqrt (Real.log 2) * d + w)) :
    ∃ xs, SideOk (mkPV er w d).cdfR (mkPV er w d).pdfR er u η ((2 * Real.sqrt (Real.log 2) * d + w) / ε)
      (0.465 * ε ^ 2 / (mkPV er w d).bigGamma) (1.28 / (mkPV er w d).bigGamma) q xs := by
  obtain ⟨xs, hxs, -⟩ := h.root (er := er) hε hq (by linarith)
  obtain ⟨W0, W1⟩ := h.trackW_le hu hη hε hn
  have hG := h.gamma_pos (er := er)
  have hGh := h.gamma_half (er := er)
  have hgood := h.good (er := er)
  have hpk := h.peaked (er := er)
  have hhalf := h.half (er := er)
  have hle := h.gamma_le (er := er)
  have hΓ : 0 < 2 * Real.sqrt (Real.log 2) * d + w := hG.trans_le hle
  have hpeak : (mkPV er w d).pdfR er ≤ 1.28 / (mkPV er w d).bigGamma := by
    obtain ⟨-, p1, -, p2⟩ := h.peaks (er := er)
    obtain ⟨e0, e1⟩ := h.eta_bounds (er := er)
    show (1 - (mkPV er w d).eta) * normPdf er (mkPV er w d).normScale er + (mkPV er w d).eta * cauchyPdf er (mkPV er w d).cauchyScale er ≤ _
    nlinarith
  have hnear : ∀ x, x ≤ er → ε / 2 ≤ (mkPV er w d).cdfR x → _ := fun x hx hF => h.near hε (by linarith) hx hF
  have hmG : 0.465 * ε ^ 2 / (mkPV er w d).bigGamma * (mkPV er w d).bigGamma = 0.465 * ε ^ 2 := div_mul_cancel₀ _ hG.ne'
  have hMG : 1.28 / (mkPV er w d).bigGamma * (mkPV er w d).bigGamma = 1.28 := div_mul_cancel₀ _ hG.ne'
  have hm0 : 0 < 0.465 * ε ^ 2 / (mkPV er w d).bigGamma := by positivity
  generalize (mkPV er w d).bigGamma = G at *
  generalize 2 * Real.sqrt (Real.log 2) * d + w = Γ at *
  unfold trackW at W0 W1
  generalize 0.465 * ε ^ 2 / G = m at *
  generalize 1.28 / G = M at *
  have ha : 0 ≤ u * (|er| + 2 * (Γ / ε)) := by positivity
  have hh : 0 ≤ 2.2 * (η + u) := by positivity
  have hΓ2 : 2e-9 ≤ Γ := by nlinarith
  have hν : M * (u * (|er| + 2 * (Γ / ε))) + 2.2 * (η + u) ≤ ε / 2 := by
    rw [div_le_iff₀ hm0] at W1
    have hG9 : 1e-9 ≤ G := by linarith
    have : m * 1e-9 ≤ 0.465 * ε ^ 2 := by rw [← hmG]; exact mul_le_mul_of_nonneg_left hG9 hm0.le
    nlinarith
  have hpos := hgood.pos er
  have hroom : xs + 2 * ((M * (u * (|er| + 2 * (Γ / ε))) + 2.2 * (η + u)) / m) ≤ er := by
    generalize (M * (u * (|er| + 2 * (Γ / ε))) + 2.2 * (η + u)) / m = W at *
    have hlt : xs < er := by
      rw [← hgood.strictMono.lt_iff_lt, hxs, hhalf]
      nlinarith
    obtain ⟨ξ, -, -, e⟩ := hgood.slope hlt
    rw [hhalf, hxs] at e
    have hξ : (mkPV er w d).pdfR ξ ≤ M := (hpk.le_peak ξ).trans hpeak
    have h1 : 1 / 2 - q ≤ M * (er - xs) := by
      rw [e]; exact mul_le_mul_of_nonneg_right hξ (by linarith)
    have h2 : (1 / 2 - q) * G ≤ 1.28 * (er - xs) := by
      rw [← hMG]; nlinarith
    have h3 : (1 / 2 - q) * Γ ≤ (1 / 2 - q) * (2 * G) := mul_le_mul_of_nonneg_left hGh (by linarith)
    nlinarith
  refine ⟨xs, by linarith, by linarith, ⟨hgood, hpk, hxs, hm0, ha, hh, hpeak, ?_, hroom⟩, ?_⟩
  · intro x hx hF
    exact (hnear x hx (by linarith)).2
  · intro x hx hF
    exact (hnear x hx (by linarith)).1

theorem Ok.track (h : Ok w d) (hu : 0 ≤ u) (hη : 0 ≤ η) (hε : 0 < ε)
    (hn : u * (|er| + 2 * (2 * Real.sqrt (Real.log 2) * d + w) / ε) + 3 * (η + u) * (2 * Real.sqrt (Real.log 2) * d + w) ≤ 5e-11 * ε ^ 2)
    {q : ℝ} (hq : Searchable fl Fc er (2 * Real.sqrt (Real.log 2) * d + w) ε q) :
    OnTrack fl Fc (mkPV er w d).cdfR (mkPV er w d).pdfR er u η ((2 * Real.sqrt (Real.log 2) * d + w) / ε)
      (0.465 * ε ^ 2 / (mkPV er w d).bigGamma) (1.28 / (mkPV er w d).bigGamma) 0 q er := by
  obtain ⟨h0, h1, hm | hfar⟩ := hq
  · exact .inl ⟨hm.1, rfl, hm.2.1, hm.2.2⟩
  · rcases le_total q (1 / 2) with hle | hge
    · rw [abs_of_nonpos (by linarith), neg_sub] at hfar
      obtain ⟨xs, hs⟩ := h.side hu hη hε h0 hle hn hfar
      exact .inr (.inl ⟨xs, hs, hs.2.2.1.start hs.1⟩)
    · rw [abs_of_nonneg (by linarith)] at hfar
      obtain ⟨xs, hs⟩ := h.side (q := 1 - q) hu hη hε (by linarith) (by linarith) hn (by linarith)
      refine .inr (.inr ⟨xs, hs, ?_⟩)
      rw [show 2 * er - er = er by ring]
      exact hs.2.2.1.start hs.1

/-- the last step is short -/
theorem Ok.trackB_le (h : Ok w d) (hu : 0 ≤ u) (hη : 0 ≤ η) (hε : 0 < ε)
    (hn : u * (|er| + 2 * (2 * Real.sqrt (Real.log 2) * d + w) / ε) + 3 * (η + u) * (2 * Real.sqrt (Real.log 2) * d + w) ≤ 5e-11 * ε ^ 2)
    (hG : 2 * Real.sqrt (Real.log 2) * d + w ≤ 1e20 * ε ^ 4) :
    trackB er u η ((2 * Real.sqrt (Real.log 2) * d + w) / ε) (0.465 * ε ^ 2 / (mkPV er w d).bigGamma) (1.28 / (mkPV er w d).bigGamma) 49
      ≤ 1.4e-8 := by
  obtain ⟨W0, W1⟩ := h.trackW_le hu hη hε hn
  have hG0 := h.gamma_pos (er := er)
  have hle := (h.gamma_le (er := er)).trans hG
  unfold trackB
  generalize trackW er u η ((2 * Real.sqrt (Real.log 2) * d + w) / ε) (0.465 * ε ^ 2 / (mkPV er w d).bigGamma)
    (1.28 / (mkPV er w d).bigGamma) = W at *
  generalize (mkPV er w d).bigGamma = G at *
  have h1 : (0.261 : ℝ) ^ 49 * (1.28 / G / 2) / (0.465 * ε ^ 2 / G) ^ 2 ≤ 1e-8 := by
    have e : (0.261 : ℝ) ^ 49 * (1.28 / G / 2) / (0.465 * ε ^ 2 / G) ^ 2 = (0.261 ^ 49 * 0.64 / 0.216225) * (G / ε ^ 4) := by
      field_simp
      norm_num
    have h2 : G / ε ^ 4 ≤ 1e20 := by rwa [div_le_iff₀ (by positivity)]
    rw [e]
    calc _ ≤ ((0.261 : ℝ) ^ 49 * 0.64 / 0.216225) * 1e20 := mul_le_mul_of_nonneg_left h2 (by positivity)
      _ ≤ 1e-8 := by norm_num
  have h3 : (50 + ((49 : ℕ) : ℝ)) * W ≤ 1.3662e-8 := by push_cast; linarith
  have := max_le (h1.trans (by norm_num : (1e-8 : ℝ) ≤ 1.3662e-8)) h3
  linarith

end PV

variable {fl Fc pc F p : ℝ → ℝ} {u η ε : ℝ}

/-- the assumptions for the search -/
theorem FloatPV.search {er w d L : ℝ} (hok : PV.Ok w d) (hF : ∀ x, (mkPV er w d).cdf x = .fin (F x))
    (hp : ∀ x, (mkPV er w d).pdf x = .fin (p x)) (h : FloatPV fl Fc pc F p er u η L) :
    SearchNoise fl Fc pc (mkPV er w d).cdfR (mkPV er w d).pdfR er u η L := by
  have eF : F = (mkPV er w d).cdfR := by
    funext x
    have := hF x
    rw [PV.cdf, if_pos hok.valid] at this
    exact (Fl.fin.inj this).symm
  have ep : p = (mkPV er w d).pdfR := by
    funext x
    have := hp x
    rw [PV.pdf, if_pos hok.valid] at this
    exact (Fl.fin.inj this).symm
  subst eF ep
  exact ⟨h.rounding, h.u0, h.u1, h.η0, h.η1, hok.good, fun x _ => h.cdf x, h.pdf_near⟩

theorem fl_tol_ge (h : Rounding u fl) (hu : u ≤ 1 / 1000) : 0.999 * newtonTol ≤ fl newtonTol := by
  have h1 := (abs_le.1 (h newtonTol)).1
  rw [abs_of_pos newtonTol_pos] at h1
  nlinarith [newtonTol_pos]

end Ries
