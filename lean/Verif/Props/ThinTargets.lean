import Verif.Props.SelfAbsorptionBounds
import Verif.Props.VoigtLimits

/-! # Property C172: self absorption of thin targets

For thin targets the self absorption of the 6Li notebook is the mean cross section of the photons that are absorbed,
`∫ σ² / ∫ σ`, times the areal density of the absorber. -/

open MeasureTheory Set Filter Topology

namespace Ries

/-! ## Specification -/

/-- the mean of a cross section between two energies, weighted with the cross section itself -/
noncomputable def meanCrossSection (σ : ℝ → ℝ) (lo hi : ℝ) : ℝ := (∫ E in lo..hi, σ E ^ 2) / ∫ E in lo..hi, σ E

/-! ## C172 -/

theorem one_sub_exp_le (x : ℝ) : 1 - Real.exp (-x) ≤ x := by linarith [Real.add_one_le_exp (-x)]

theorem one_sub_exp_ge {x : ℝ} (hx : 0 ≤ x) : x * (1 - x / 2) ≤ 1 - Real.exp (-x) := by
  have h := Real.quadratic_le_exp_of_nonneg hx
  have h1 : Real.exp (-x) ≤ 1 - x + x ^ 2 / 2 := by
    rw [Real.exp_neg, inv_le_comm₀ (Real.exp_pos x) (by nlinarith [sq_nonneg (x - 1)])]
    refine le_trans ?_ h
    rw [inv_le_iff_one_le_mul₀ (by nlinarith [sq_nonneg (x - 1)])]
    nlinarith [sq_nonneg (x ^ 2)]
  nlinarith

variable {r : Reso} {σ : ℝ → ℝ} {lo hi M ρA ρS : ℝ}

/-- C172: the self absorption is at most the mean cross section times the areal density of the absorber, for targets of
any thickness, and smaller by at most the fractions `M ρA / 2` and `M ρS / 2`, where `M` is the largest cross section. -/
theorem C172_thin (hσ : r.HasSigma σ) (hc : Continuous σ) (hp : ∀ E, 0 < σ E) (hlt : lo < hi)
    (hM : ∀ E ∈ Icc lo hi, σ E ≤ M) (hA : 0 ≤ ρA) (hS : 0 < ρS) :
    ∃ R, selfAbsorption r ρA ρS (lo - r.er) (hi - r.er) = .ok R ∧ R ≤ ρA * meanCrossSection σ lo hi ∧
      (M * ρA ≤ 2 → M * ρS ≤ 2 → ρA * meanCrossSection σ lo hi * (1 - M * ρA / 2) * (1 - M * ρS / 2) ≤ R) := by
  obtain ⟨R, hR, hprop⟩ := C105_self_absorption hσ hc hp hlt
  refine ⟨R ρA ρS, hR ρA ρS hS, ?_⟩
  have i1 : IntervalIntegrable (fun E => σ E) volume lo hi := hc.intervalIntegrable _ _
  have i2 : IntervalIntegrable (fun E => σ E ^ 2) volume lo hi := (hc.pow 2).intervalIntegrable _ _
  have I1 : 0 < ∫ E in lo..hi, σ E := intervalIntegral.intervalIntegral_pos_of_pos i1 hp hlt
  have I2 : 0 < ∫ E in lo..hi, σ E ^ 2 := intervalIntegral.intervalIntegral_pos_of_pos i2 (fun E => pow_pos (hp E) 2) hlt
  have hMpos : 0 < M := (hp lo).trans_le (hM lo ⟨le_rfl, hlt.le⟩)
  have z : ∀ s, absorbed σ lo hi 0 s = ∫ E in lo..hi, scat (σ E) s := fun s => by rw [absorbed_eq]; simp
  have ci : ∀ s t, IntervalIntegrable (fun E => scat (σ E) t * scat (σ E) s) volume lo hi := fun s t =>
    Continuous.intervalIntegrable (by unfold scat; fun_prop) _ _
  have ci1 : ∀ s, IntervalIntegrable (fun E => scat (σ E) s) volume lo hi := fun s =>
    Continuous.intervalIntegrable (by unfold scat; fun_prop) _ _
  have ci2 : ∀ s t, IntervalIntegrable (fun E => Real.exp (-σ E * t) * scat (σ E) s) volume lo hi := fun s t =>
    Continuous.intervalIntegrable (by unfold scat; fun_prop) _ _
  -- the self absorption as a quotient
  have hq : ∀ s, 0 < s → R ρA s = (∫ E in lo..hi, scat (σ E) ρA * scat (σ E) s) / ∫ E in lo..hi, scat (σ E) s := by
    intro s hs
    have hd : 0 < ∫ E in lo..hi, scat (σ E) s := scat_integral_pos hc hp hlt hs
    rw [(hprop s hs).1, z, absorbed_eq, eq_div_iff hd.ne', sub_mul, div_mul_cancel₀ _ hd.ne', one_mul,
      ← intervalIntegral.integral_sub (ci1 s) (ci2 s ρA)]
    refine intervalIntegral.integral_congr fun E _ => ?_
    simp only [scat]; ring
  have up : ∀ E s, scat (σ E) s ≤ σ E * s := fun E s => by
    have := one_sub_exp_le (σ E * s)
    simpa [scat] using this
  have low : ∀ E ∈ Icc lo hi, ∀ s, 0 ≤ s → σ E * s * (1 - M * s / 2) ≤ scat (σ E) s := fun E hE s hs => by
    have h0 := mul_nonneg (hp E).le hs
    have := one_sub_exp_ge h0
    have h2 : σ E * s ≤ M * s := mul_le_mul_of_nonneg_right (hM E hE) hs
    simp only [scat, neg_mul]
    nlinarith
  have sn : ∀ E s, 0 ≤ s → 0 ≤ scat (σ E) s := fun E s hs => by
    rcases hs.eq_or_lt with rfl | h
    · simp [scat]
    · exact (scat_pos (hp E) h).le
  -- upper bound for thin scatterers
  have hub : ∀ s, 0 < s → M * s < 2 → R ρA s ≤ ρA * meanCrossSection σ lo hi / (1 - M * s / 2) := by
    intro s hs hs2
    have hd : 0 < ∫ E in lo..hi, scat (σ E) s := scat_integral_pos hc hp hlt hs
    have h1 : (∫ E in lo..hi, scat (σ E) ρA * scat (σ E) s) ≤ ρA * s * ∫ E in lo..hi, σ E ^ 2 := by
      rw [← intervalIntegral.integral_const_mul]
      refine intervalIntegral.integral_mono_on hlt.le (ci _ _) (i2.const_mul _) fun E _ => ?_
      calc scat (σ E) ρA * scat (σ E) s ≤ (σ E * ρA) * (σ E * s) :=
            mul_le_mul (up E ρA) (up E s) (sn E s hs.le) (mul_nonneg (hp E).le hA)
        _ = ρA * s * σ E ^ 2 := by ring
    have h2 : s * (1 - M * s / 2) * (∫ E in lo..hi, σ E) ≤ ∫ E in lo..hi, scat (σ E) s := by
      rw [← intervalIntegral.integral_const_mul]
      refine intervalIntegral.integral_mono_on hlt.le (i1.const_mul _) (ci1 _) fun E hE => ?_
      have := low E hE s hs.le
      nlinarith
    have h3 : 0 < 1 - M * s / 2 := by linarith
    rw [hq s hs, div_le_iff₀ hd, meanCrossSection]
    refine h1.trans ?_
    have e : ρA * s * (∫ E in lo..hi, σ E ^ 2) = ρA * ((∫ E in lo..hi, σ E ^ 2) / ∫ E in lo..hi, σ E) / (1 - M * s / 2) *
        (s * (1 - M * s / 2) * ∫ E in lo..hi, σ E) := by
      generalize 1 - M * s / 2 = q at h3
      field_simp
    rw [e]
    refine mul_le_mul_of_nonneg_left h2 ?_
    positivity
  constructor
  · -- the self absorption does not increase with the thickness of the scatterer
    have hlim : Tendsto (fun s => ρA * meanCrossSection σ lo hi / (1 - M * s / 2)) (𝓝[>] 0)
        (𝓝 (ρA * meanCrossSection σ lo hi)) := by
      have : ContinuousAt (fun s => ρA * meanCrossSection σ lo hi / (1 - M * s / 2)) 0 := by
        refine ContinuousAt.div (by fun_prop) (by fun_prop) (by simp)
      have h := this.tendsto
      simp only [mul_zero, zero_div, sub_zero, div_one] at h
      exact h.mono_left nhdsWithin_le_nhds
    refine ge_of_tendsto hlim ?_
    have hpos : 0 < min ρS (2 / M) := lt_min hS (by positivity)
    filter_upwards [Ioo_mem_nhdsGT hpos] with s hs
    have hs1 : s ≤ ρS := hs.2.le.trans (min_le_left _ _)
    have hs2 : M * s < 2 := by
      have := hs.2.trans_le (min_le_right _ _)
      rw [lt_div_iff₀ hMpos] at this
      linarith
    exact ((hprop s hs.1).2.2.2.2.2 ρA hA ρS hs1).trans (hub s hs.1 hs2)
  · intro ha hs
    have hd : 0 < ∫ E in lo..hi, scat (σ E) ρS := scat_integral_pos hc hp hlt hS
    have h1 : ρA * (1 - M * ρA / 2) * (ρS * (1 - M * ρS / 2)) * (∫ E in lo..hi, σ E ^ 2) ≤
        ∫ E in lo..hi, scat (σ E) ρA * scat (σ E) ρS := by
      rw [← intervalIntegral.integral_const_mul]
      refine intervalIntegral.integral_mono_on hlt.le (i2.const_mul _) (ci _ _) fun E hE => ?_
      calc ρA * (1 - M * ρA / 2) * (ρS * (1 - M * ρS / 2)) * σ E ^ 2
          = (σ E * ρA * (1 - M * ρA / 2)) * (σ E * ρS * (1 - M * ρS / 2)) := by ring
        _ ≤ scat (σ E) ρA * scat (σ E) ρS := by
            refine mul_le_mul (low E hE ρA hA) (low E hE ρS hS.le) ?_ (sn E ρA hA)
            exact mul_nonneg (mul_nonneg (hp E).le hS.le) (by linarith)
    have h2 : (∫ E in lo..hi, scat (σ E) ρS) ≤ ρS * ∫ E in lo..hi, σ E := by
      rw [← intervalIntegral.integral_const_mul]
      refine intervalIntegral.integral_mono_on hlt.le (ci1 _) (i1.const_mul _) fun E _ => ?_
      have := up E ρS
      linarith
    rw [hq ρS hS, le_div_iff₀ hd, meanCrossSection]
    refine le_trans ?_ h1
    have e : ρA * (1 - M * ρA / 2) * (ρS * (1 - M * ρS / 2)) * (∫ E in lo..hi, σ E ^ 2) =
        ρA * ((∫ E in lo..hi, σ E ^ 2) / ∫ E in lo..hi, σ E) * (1 - M * ρA / 2) * (1 - M * ρS / 2) *
          (ρS * ∫ E in lo..hi, σ E) := by
      field_simp
    rw [e]
    refine mul_le_mul_of_nonneg_left h2 ?_
    have : 0 ≤ 1 - M * ρA / 2 := by linarith
    have : 0 ≤ 1 - M * ρS / 2 := by linarith
    positivity

/-- C172: in the limit of thin targets the self absorption per areal density of the absorber is the mean cross
section. -/
theorem C172_limit (hσ : r.HasSigma σ) (hc : Continuous σ) (hp : ∀ E, 0 < σ E) (hlt : lo < hi) :
    ∃ R : ℝ → ℝ → ℝ, (∀ ρA ρS, 0 < ρS → selfAbsorption r ρA ρS (lo - r.er) (hi - r.er) = .ok (R ρA ρS)) ∧
      Tendsto (fun p : ℝ × ℝ => R p.1 p.2 / p.1) (𝓝[>] 0 ×ˢ 𝓝[>] 0) (𝓝 (meanCrossSection σ lo hi)) := by
  obtain ⟨R, hR, -⟩ := C105_self_absorption hσ hc hp hlt
  refine ⟨R, hR, ?_⟩
  obtain ⟨M, hM⟩ := (isCompact_Icc (a := lo) (b := hi)).bddAbove_image hc.continuousOn
  have hM' : ∀ E ∈ Icc lo hi, σ E ≤ M := fun E hE => hM (mem_image_of_mem _ hE)
  have hMpos : 0 < M := (hp lo).trans_le (hM' lo ⟨le_rfl, hlt.le⟩)
  have hsmall : ∀ᶠ s : ℝ in 𝓝[>] 0, 0 < s ∧ M * s ≤ 2 := by
    have h2 : (0 : ℝ) < 2 / M := by positivity
    filter_upwards [Ioo_mem_nhdsGT h2] with s hs
    exact ⟨hs.1, by have := hs.2; rw [lt_div_iff₀ hMpos] at this; linarith⟩
  have hev := hsmall.prod_mk hsmall
  have hlim : Tendsto (fun p : ℝ × ℝ => meanCrossSection σ lo hi * (1 - M * p.1 / 2) * (1 - M * p.2 / 2)) (𝓝[>] 0 ×ˢ 𝓝[>] 0)
      (𝓝 (meanCrossSection σ lo hi)) := by
    have h : Tendsto (fun p : ℝ × ℝ => meanCrossSection σ lo hi * (1 - M * p.1 / 2) * (1 - M * p.2 / 2)) (𝓝 (0, 0))
        (𝓝 (meanCrossSection σ lo hi * (1 - M * 0 / 2) * (1 - M * 0 / 2))) :=
      Continuous.tendsto (by fun_prop) (0, 0)
    simp only [mul_zero, zero_div, sub_zero, mul_one] at h
    refine h.mono_left ?_
    rw [nhds_prod_eq]
    exact prod_mono nhdsWithin_le_nhds nhdsWithin_le_nhds
  refine tendsto_of_tendsto_of_tendsto_of_le_of_le' hlim tendsto_const_nhds ?_ ?_
  · filter_upwards [hev] with p hp'
    obtain ⟨⟨ha, ha2⟩, hs, hs2⟩ := hp'
    obtain ⟨R', h', -, hlow⟩ := C172_thin hσ hc hp hlt hM' ha.le hs
    rw [hR _ _ hs] at h'
    cases h'
    rw [le_div_iff₀ ha]
    have := hlow ha2 hs2
    nlinarith
  · filter_upwards [hev] with p hp'
    obtain ⟨⟨ha, ha2⟩, hs, hs2⟩ := hp'
    obtain ⟨R', h', hup, -⟩ := C172_thin hσ hc hp hlt hM' ha.le hs
    rw [hR _ _ hs] at h'
    cases h'
    rw [div_le_iff₀ ha]
    linarith

theorem tendsto_div_one_add_sq : Tendsto (fun z : ℝ => z / (1 + z ^ 2)) atTop (𝓝 0) := by
  refine squeeze_zero' (g := fun z : ℝ => z⁻¹) ?_ ?_ tendsto_inv_atTop_zero
  · filter_upwards [eventually_ge_atTop 0] with z hz
    positivity
  · filter_upwards [eventually_gt_atTop 0] with z hz
    rw [div_le_iff₀ (by positivity), inv_mul_eq_div, le_div_iff₀ hz]
    nlinarith

/-- the normalised distribution function of the squared Cauchy density -/
theorem sq_cauchy_good (l : ℝ) {s : ℝ} (hs : 0 < s) :
    GoodCDF (fun x => 1 / 2 + 1 / Real.pi * ((x - l) / s / (1 + ((x - l) / s) ^ 2) + Real.arctan ((x - l) / s)))
      (fun x => 2 * Real.pi * s * cauchyPdf l s x ^ 2) where
  deriv x := by
    have hpi := Real.pi_pos
    have hz : HasDerivAt (fun x : ℝ => (x - l) / s) (1 / s) x := ((hasDerivAt_id x).sub_const l).div_const s
    have h0 : ∀ z : ℝ, (1 : ℝ) + z ^ 2 ≠ 0 := fun z => by positivity
    have hsq : HasDerivAt (fun x : ℝ => 1 + ((x - l) / s) ^ 2) (2 * ((x - l) / s) * (1 / s)) x := by
      simpa using (hz.pow 2).const_add 1
    have h := (((hz.div hsq (h0 _)).add hz.arctan).const_mul (1 / Real.pi)).const_add (1 / 2)
    refine h.congr_deriv ?_
    have hz0 := h0 ((x - l) / s)
    unfold cauchyPdf
    generalize (x - l) / s = z at hz0 ⊢
    field_simp
    ring
  cont := by
    have := (cauchy_good l hs).cont
    fun_prop
  pos x := by
    have := (cauchy_good l hs).pos x
    have := Real.pi_pos
    positivity
  bot := by
    have hz : Tendsto (fun x : ℝ => (x - l) / s) atBot atBot :=
      (tendsto_atBot_add_const_right _ (-l) tendsto_id).atBot_div_const hs
    have h1 : Tendsto (fun z : ℝ => z / (1 + z ^ 2)) atBot (𝓝 0) := by
      have h := (tendsto_div_one_add_sq.comp tendsto_neg_atBot_atTop).neg
      simp only [neg_zero] at h
      refine h.congr fun z => ?_
      simp [neg_div]
    have h2 := Real.tendsto_arctan_atBot.mono_right nhdsWithin_le_nhds
    have h := (((h1.add h2).comp hz).const_mul (1 / Real.pi)).const_add (1 / 2)
    have e : 1 / 2 + 1 / Real.pi * (0 + -(Real.pi / 2)) = 0 := by
      have := Real.pi_pos
      field_simp; ring
    rw [e] at h
    exact h
  top := by
    have hz : Tendsto (fun x : ℝ => (x - l) / s) atTop atTop :=
      (tendsto_atTop_add_const_right _ (-l) tendsto_id).atTop_div_const hs
    have h1 := tendsto_div_one_add_sq
    have h2 := Real.tendsto_arctan_atTop.mono_right nhdsWithin_le_nhds
    have h := (((h1.add h2).comp hz).const_mul (1 / Real.pi)).const_add (1 / 2)
    have e : 1 / 2 + 1 / Real.pi * (0 + Real.pi / 2) = 1 := by
      have := Real.pi_pos
      field_simp; ring
    rw [e] at h
    exact h

theorem GoodCDF.tendsto_window {F p : ℝ → ℝ} (h : GoodCDF F p) (m : ℝ) :
    Tendsto (fun L => ∫ E in (m - L)..(m + L), p E) atTop (𝓝 1) := by
  have e : (fun L => ∫ E in (m - L)..(m + L), p E) = fun L => F (m + L) - F (m - L) := by
    funext L
    exact intervalIntegral.integral_eq_sub_of_hasDerivAt (fun x _ => h.deriv x) (h.cont.intervalIntegrable _ _)
  rw [e]
  have h1 := h.top.comp (tendsto_atTop_add_const_left atTop m tendsto_id)
  have h2 := h.bot.comp (tendsto_atBot_add_const_left atTop m tendsto_neg_atTop_atBot)
  simpa [Function.comp_def, sub_eq_add_neg] using h1.sub h2

theorem mean_window {F p G q : ℝ → ℝ} {I c m : ℝ} (hI : I ≠ 0) (h : GoodCDF F p) (hq : GoodCDF G q)
    (hsq : ∀ x, p x ^ 2 = c * q x) :
    Tendsto (fun L => meanCrossSection (fun E => I * p E) (m - L) (m + L)) atTop (𝓝 (I * c)) := by
  have e : (fun L => meanCrossSection (fun E => I * p E) (m - L) (m + L)) = fun L =>
      (I * c) * ((∫ E in (m - L)..(m + L), q E) / ∫ E in (m - L)..(m + L), p E) := by
    funext L
    unfold meanCrossSection
    simp only [mul_pow, hsq, intervalIntegral.integral_const_mul]
    generalize (∫ E in (m - L)..(m + L), q E) = a
    generalize (∫ E in (m - L)..(m + L), p E) = b
    rcases eq_or_ne b 0 with rfl | hb
    · simp
    · field_simp
  rw [e]
  have := ((hq.tendsto_window m).div (h.tendsto_window m) one_ne_zero).const_mul (I * c)
  simpa using this

/-- C172: integrated over all energies the mean cross section of a Breit-Wigner resonance is one half of its maximum. -/
theorem C172_breit_wigner (h : IsBreitWigner r) (hI : 0 < r.ics) (hσ : r.HasSigma σ) :
    Tendsto (fun L => meanCrossSection σ (r.er - L) (r.er + L)) atTop (𝓝 (σ r.er / 2)) := by
  obtain ⟨s, hs, hd, hp⟩ := h.inv
  have hA := analytic_cauchy hd hp hs
  rw [sigma_unique hσ hA.sigma]
  have hpi := Real.pi_pos
  have h := mean_window (m := r.er) hI.ne' (cauchy_good r.er hs) (sq_cauchy_good r.er hs) (c := 1 / (2 * Real.pi * s))
    (fun x => by field_simp)
  have e : r.ics * (1 / (2 * Real.pi * s)) = r.ics * cauchyPdf r.er s r.er / 2 := by
    simp [cauchyPdf]; field_simp
  rw [e] at h
  exact h

theorem normPdf_sq (l : ℝ) {s : ℝ} (hs : 0 < s) (x : ℝ) :
    normPdf l s x ^ 2 = 1 / (2 * s * Real.sqrt Real.pi) * normPdf l (s / Real.sqrt 2) x := by
  have hpi := Real.pi_pos
  have h2 : Real.sqrt 2 ^ 2 = 2 := Real.sq_sqrt (by norm_num)
  have hp2 : Real.sqrt Real.pi ^ 2 = Real.pi := Real.sq_sqrt hpi.le
  have h2p : 0 < Real.sqrt 2 := by positivity
  have hpp : 0 < Real.sqrt Real.pi := by positivity
  unfold normPdf
  rw [div_pow, ← Real.exp_nat_mul, Real.sqrt_mul (by norm_num)]
  have e : ((2 : ℕ) : ℝ) * (-((x - l) / s) ^ 2 / 2) = -((x - l) / (s / Real.sqrt 2)) ^ 2 / 2 := by
    push_cast
    field_simp
    rw [h2]
    ring
  rw [e]
  generalize Real.exp (-((x - l) / (s / Real.sqrt 2)) ^ 2 / 2) = y
  field_simp
  rw [h2]

/-- C172: for a Gauss resonance it is the maximum divided by the square root of two. -/
theorem C172_gauss (h : IsGauss r) (hI : 0 < r.ics) (hσ : r.HasSigma σ) :
    Tendsto (fun L => meanCrossSection σ (r.er - L) (r.er + L)) atTop (𝓝 (σ r.er / Real.sqrt 2)) := by
  obtain ⟨s, hs, hd, hp⟩ := h.inv
  have hA := analytic_norm hd hp hs
  rw [sigma_unique hσ hA.sigma]
  have hpi := Real.pi_pos
  have h2 : 0 < Real.sqrt 2 := by positivity
  have h := mean_window (m := r.er) hI.ne' (norm_good r.er hs) (norm_good r.er (div_pos hs h2)) (normPdf_sq r.er hs)
  have e : r.ics * (1 / (2 * s * Real.sqrt Real.pi)) = r.ics * normPdf r.er s r.er / Real.sqrt 2 := by
    have h22 : Real.sqrt 2 ^ 2 = 2 := Real.sq_sqrt (by norm_num)
    simp only [normPdf, sub_self, zero_div]
    rw [Real.sqrt_mul (by norm_num)]
    have : 0 < Real.sqrt Real.pi := by positivity
    simp
    field_simp
    nlinarith
  rw [e] at h
  exact h

/-- the hypotheses are met -/
example : ∃ (r : Reso) (σ : ℝ → ℝ), IsBreitWigner r ∧ r.HasSigma σ ∧ Continuous σ ∧ (∀ E, 0 < σ E) ∧ 0 < r.ics := by
  obtain ⟨r, h, he, hi⟩ := exMid_resonance
  have hb : mkBreitWigner exConst exGround exMid none =
      .ok { r with dist := cauchyDist, params := [r.er, 0.5 * 1e-5] } := by
    simp [mkBreitWigner, h, exMid_width, Bind.bind, Except.bind]
  have hw : (0 : ℝ) < 0.5 * 1e-5 := by norm_num
  have hA := analytic_cauchy (r := { r with dist := cauchyDist, params := [r.er, 0.5 * 1e-5] }) rfl rfl hw
  have hc := hA.good.cont
  exact ⟨_, _, ⟨_, _, _, _, 1e-5, hb, exMid_width, by norm_num⟩, hA.sigma, by fun_prop,
    fun E => mul_pos hi (hA.good.pos E), hi⟩

end Ries
