import Verif.Lemmas.ThickTargets

/-! # Property C196: the measured self absorption determines the width of the level

The notebook inverts `R(Gamma)` by a minimization and thus assumes that `R` increases with the width. -/

open MeasureTheory Set Filter Topology

namespace Ries

/-- A call of `R` for 6Li at a positive temperature, with the coverage 0.999 of the notebook: the limits are the quantiles of the pseudo-Voigt
distribution. -/
theorem li6_run (k : PhysConst) {D : Li6Data} (hD : D.Ok) {Γ T : ℝ} (hΓ : 0 < Γ) (hT : 0 < T)
    (hG : 2 * Real.sqrt (Real.log 2) * dopplerWidth k D.m6 T 3.56288 + Γ ≤ 1e8) :
    ∃ (r : Reso) (lo hi : ℝ),
      r.HasSigma (fun E => li6Peak k * (Real.pi * Γ / 2) * coldVoigt r.er (Γ / 2) E (dopplerWidth k D.m6 T 3.56288 / Real.sqrt 2)) ∧
      lo + hi = 2 * r.er ∧ r.er ≤ hi ∧
      AtQuantile (mkPV r.er Γ (dopplerWidth k D.m6 T 3.56288)) r.er 0.9995 hi ∧ 0 < li6Peak k ∧
      ∀ mA mS diameter enrichment, li6R k D Γ mA mS diameter enrichment T 0.999 =
        selfAbsorption r (D.arealDensity mA diameter enrichment) (D.arealDensity mS diameter enrichment) (lo - r.er) (hi - r.er) := by
  obtain ⟨r, hr, her, hics⟩ := li6_voigt k hΓ hD.m6 T
  have hexc := li6_exc Γ
  have hsig := voigt_sigma hr hD.m6 hT.le hexc (li6_width Γ) hΓ
  have hv : IsVoigtOf r Γ (dopplerWidth k D.m6 T r.er) := ⟨k, _, _, _, T, none, hr, hD.m6, hT.le, hexc, li6_width Γ,
    getDopplerWidth_ok k hD.m6.ne' T r.er, hΓ.le, Or.inl hΓ⟩
  obtain ⟨hok, hdist, hpar⟩ := hv.inv
  obtain ⟨ci, lo, hi, hci, hlo, hhi, hsum, hle, hcase⟩ := pv_coverage hok (by rw [hdist]; rfl) (by rw [hdist]; rfl) hpar
    (c := 0.999) (by norm_num) (by norm_num)
  have hee : (li6Excited Γ).exc = r.er := her.symm
  have her' : r.er = 3.56288 := her
  have hpeak := li6_ics k hr
  have hpk : 0 < li6Peak k := by
    rw [hpeak] at hics
    have : 0 < Real.pi * Γ / 2 := by have := Real.pi_pos; positivity
    exact (mul_pos_iff_of_pos_right this).1 hics
  rw [her'] at hsig hok hcase hsum hle
  rw [hpeak] at hsig
  refine ⟨r, lo, hi, by rw [her']; exact hsig, by rw [her']; exact hsum, by rw [her']; linarith, ?_, hpk, fun mA mS diameter enrichment => ?_⟩
  · rcases hcase with ⟨-, q⟩ | ⟨hw, -⟩
    · rw [her']
      have e : ((1 : ℝ) + 0.999) / 2 = 0.9995 := by norm_num
      rw [e] at q
      exact q
    · exfalso
      obtain ⟨xs, hx⟩ := hok.ppfArray_central (er := 3.56288) (ε := 0.0005) (by norm_num) (hok.gamma_le.trans (hG.trans (by norm_num)))
        (qs := [(1 - 0.999) / 2, (1 + 0.999) / 2]) (by simp) (by
          intro q hq
          simp only [List.mem_cons, List.not_mem_nil, or_false] at hq
          rcases hq with rfl | rfl <;> constructor <;> norm_num)
      rw [hx] at hw
      simp at hw
  · simp only [li6R, hr, hci, Bind.bind, Except.bind, hlo, hhi, hee]

/-- C196 is false: for every target geometry and every effective temperature at which the thermal motion broadens the line by 0.1 eV to 1 MeV, there are a
thickness of the targets and three widths such that the self absorption for the middle one is larger than those for the smaller and for the
larger one. -/
theorem C196_refuted (k : PhysConst) {D : Li6Data} (hD : D.Ok) {T diameter enrichment : ℝ} (hT : 0 < T) (hd : 0 < diameter)
    (hx : 0 < enrichment) (h1 : 1e-7 ≤ dopplerWidth k D.m6 T 3.56288) (h2 : dopplerWidth k D.m6 T 3.56288 ≤ 1) :
    ∃ m Γ₀ Γ₁ Γ₂ R₀ R₁ R₂ : ℝ, 0 < m ∧ 0 < Γ₀ ∧ Γ₀ < Γ₁ ∧ Γ₁ < Γ₂ ∧
      li6R k D Γ₀ m m diameter enrichment T 0.999 = .ok R₀ ∧ li6R k D Γ₁ m m diameter enrichment T 0.999 = .ok R₁ ∧
      li6R k D Γ₂ m m diameter enrichment T 0.999 = .ok R₂ ∧ R₀ < R₂ ∧ R₂ < R₁ := by
  obtain ⟨q1, q2⟩ := sqrt_two_bounds
  obtain ⟨l1, l2⟩ := sqrt_log_two_bounds
  have hπ := Real.pi_pos
  set d := dopplerWidth k D.m6 T 3.56288 with hdd
  have hd0 : 0 < d := lt_of_lt_of_le (by norm_num) h1
  set s := d / Real.sqrt 2 with hs
  have hs0 : 0 < s := div_pos hd0 (by linarith)
  have hds : d = s * Real.sqrt 2 := by rw [hs]; field_simp
  have hs1 : s ≤ 1 := by
    rw [hs, div_le_one (by linarith)]
    linarith
  have hg1 : 0 < 0.008 * s := by positivity
  have hGd : 2 * Real.sqrt (Real.log 2) * d ≤ 2 := by nlinarith
  -- the narrow level
  obtain ⟨r₁, lo₁, hi₁, σ₁, sum₁, le₁, at₁, hpk, run₁⟩ := li6_run k hD (Γ := 0.008 * s) hg1 hT (by
    rw [← hdd]
    norm_num at *
    linarith)
  rw [← hdd] at at₁ σ₁
  rw [← hs] at σ₁
  have hok₁ : PV.Ok (0.008 * s) d := ⟨hg1.le, hd0.le, Or.inl hg1⟩
  have hedge₁ : hi₁ ≤ r₁.er + 3.515 * s := by
    have h3 := (at₁.2.1 (by norm_num)).2
    have h4 := pv_narrow_edge r₁.er hs0 hds rfl
    exact (hok₁.good (er := r₁.er)).strictMono.le_iff_le.1 (h3.trans h4)
  have hlt₁ : lo₁ < hi₁ := by
    suffices hi₁ ≠ r₁.er by
      have := lt_of_le_of_ne le₁ this.symm
      linarith
    intro he
    have h3 := at₁.1
    rw [he, hok₁.half] at h3
    have h4 := hok₁.error_le (er := r₁.er)
    have h5 : (1.66e-7 : ℝ) ≤ max (0.008 * s) (2 * Real.sqrt (Real.log 2) * d) := by
      refine le_trans ?_ (le_max_right _ _)
      norm_num at h1 l1 ⊢
      nlinarith
    have h6 : (1.9e-8 : ℝ) / max (0.008 * s) (2 * Real.sqrt (Real.log 2) * d) ≤ 1.9e-8 / 1.66e-7 :=
      div_le_div_of_nonneg_left (by norm_num) (by norm_num) h5
    have h7 : |(1 / 2 : ℝ) - 0.9995| ≤ 1.9e-8 / 1.66e-7 := h3.trans (h4.trans h6)
    rw [abs_of_neg (by norm_num)] at h7
    norm_num at h7
  -- the broad level
  obtain ⟨r₂, lo₂, hi₂, σ₂, sum₂, le₂, at₂, -, run₂⟩ := li6_run k hD (Γ := 10000) (by norm_num) hT (by
    rw [← hdd]
    norm_num
    linarith)
  rw [← hdd] at at₂ σ₂
  rw [← hs] at σ₂
  have hok₂ : PV.Ok 10000 d := ⟨by norm_num, hd0.le, Or.inl (by norm_num)⟩
  have hedge₂ : r₂.er + 1580000 ≤ hi₂ := by
    have h3 := (abs_le.1 at₂.1).1
    have h4 := pv_broad_edge r₂.er hd0.le h2
    have h5 : (1.9e-8 : ℝ) / (mkPV r₂.er 10000 d).bigGamma ≤ 1.9e-8 / 1 := by
      refine div_le_div_of_nonneg_left (by norm_num) (by norm_num) ?_
      have : (10000 : ℝ) ≤ (mkPV r₂.er 10000 d).bigGamma := pvGamma_ge_right hok₂.g0 hok₂.w0
      linarith
    refine (hok₂.good (er := r₂.er)).strictMono.le_iff_le.1 ?_
    norm_num at h3 h4 h5 ⊢
    linarith
  -- smallest cross sections
  have hm : ∀ E ∈ Icc lo₁ hi₁, li6Peak k * 1.03e-5 ≤ li6Peak k * (Real.pi * (0.008 * s) / 2) * coldVoigt r₁.er (0.008 * s / 2) E s := by
    intro E hE
    rw [mul_assoc]
    refine mul_le_mul_of_nonneg_left ?_ hpk.le
    rw [← coldVoigt_eq r₁.er E _ hs0]
    have hP := voigt_peaked r₁.er hs0 (show 0 < 0.008 * s / 2 by positivity)
    have h3 : voigtDensity r₁.er s (0.008 * s / 2) (r₁.er + 3.515 * s) ≤ voigtDensity r₁.er s (0.008 * s / 2) E := by
      have e : E = r₁.er + (E - r₁.er) := by ring
      rw [e, ← hP.abs_eq (E - r₁.er)]
      have hab : |E - r₁.er| ≤ 3.515 * s := abs_le.2 ⟨by linarith [hE.1], by linarith [hE.2]⟩
      rcases hab.eq_or_lt with h | h
      · rw [h]
      · exact (hP.anti _ _ (abs_nonneg _) h).le
    have h4 := voigt_flank r₁.er (X := 3.515) hs0 (show 0 < 0.008 * s / 2 by positivity) (by norm_num)
    have h5 := stdPdf_numeric r₁.er hs0
    have e6 : 2 * (0.008 * s / 2 / s) / Real.pi = 0.008 / Real.pi := by field_simp
    rw [e6] at h4
    have h7 : 0.008 / Real.pi ≤ 0.003 := by
      rw [div_le_iff₀ hπ]
      have := Real.pi_gt_three
      norm_num
      linarith
    have h8 : 0.997 * (8.27e-4 / s) ≤ voigtDensity r₁.er s (0.008 * s / 2) E := by
      refine le_trans ?_ (h4.trans h3)
      refine mul_le_mul ?_ h5 (by positivity) ?_
      · norm_num at h7 ⊢; linarith
      · norm_num at h7 ⊢; linarith
    have h9 := mul_le_mul_of_nonneg_left h8 (show 0 ≤ Real.pi * (0.008 * s) / 2 by positivity)
    refine le_trans ?_ h9
    have e10 : Real.pi * (0.008 * s) / 2 * (0.997 * (8.27e-4 / s)) = Real.pi * (0.008 / 2 * 0.997 * 8.27e-4) := by field_simp
    rw [e10]
    have := Real.pi_gt_d4
    norm_num at this ⊢
    linarith
  have hM : ∀ E ∈ Icc (r₂.er + 1575000) (r₂.er + 1580000),
      li6Peak k * (Real.pi * 10000 / 2) * coldVoigt r₂.er (10000 / 2) E s ≤ li6Peak k * 1.01e-5 := by
    intro E hE
    rw [mul_assoc]
    refine mul_le_mul_of_nonneg_left ?_ hpk.le
    have h3 := voigt_far r₂.er (s := s) (g := 10000 / 2) (L := 1575000) (E := E) hs0.le (by norm_num) (by linarith) hE.1
    have h4 : Real.exp (-200) ≤ 1 / 2 ^ 200 := by
      have e : (200 : ℝ) = ((200 : ℕ) : ℝ) * 1 := by norm_num
      rw [Real.exp_neg, ← one_div, e, Real.exp_nat_mul]
      exact one_div_le_one_div_of_le (by positivity) (pow_le_pow_left₀ (by norm_num) (by linarith [Real.exp_one_gt_d9]) 200)
    have h5 : 1 / (1 + ((1575000 - 20 * s) / (10000 / 2)) ^ 2) ≤ 1 / (1 + (314.99 : ℝ) ^ 2) := by
      refine one_div_le_one_div_of_le (by norm_num) ?_
      have : (314.99 : ℝ) ≤ (1575000 - 20 * s) / (10000 / 2) := by
        rw [le_div_iff₀ (by norm_num)]
        norm_num
        linarith
      have := pow_le_pow_left₀ (by norm_num) this 2
      linarith
    have h6 := mul_le_mul_of_nonneg_left h3 (show 0 ≤ Real.pi * 10000 / 2 by positivity)
    refine h6.trans ?_
    have e7 : Real.pi * 10000 / 2 * ((1 / (1 + ((1575000 - 20 * s) / (10000 / 2)) ^ 2) + Real.exp (-200)) / (Real.pi * (10000 / 2))) =
        1 / (1 + ((1575000 - 20 * s) / (10000 / 2)) ^ 2) + Real.exp (-200) := by
      rw [mul_div_assoc', div_eq_iff (by positivity)]
      ring
    rw [e7]
    refine (add_le_add h5 h4).trans ?_
    norm_num
  -- thick targets
  have cont : ∀ (er g c : ℝ), 0 < g → Continuous fun E => c * coldVoigt er g E s := fun er g c hg =>
    continuous_const.mul (coldVoigt_continuous_energy er s hg)
  have p₁ : ∀ E, 0 < li6Peak k * (Real.pi * (0.008 * s) / 2) * coldVoigt r₁.er (0.008 * s / 2) E s := fun E =>
    mul_pos (mul_pos hpk (by positivity)) (coldVoigt_pos _ _ _ (by positivity))
  have p₂ : ∀ E, 0 < li6Peak k * (Real.pi * 10000 / 2) * coldVoigt r₂.er (10000 / 2) E s := fun E =>
    mul_pos (mul_pos hpk (by positivity)) (coldVoigt_pos _ _ _ (by positivity))
  obtain ⟨ρ₀, hρ₀, hthick⟩ := thick_lt σ₁ σ₂ (cont _ _ _ (by positivity)) (cont _ _ _ (by norm_num)) p₁ p₂ hlt₁
    (show lo₂ ≤ r₂.er + 1575000 by linarith) (by norm_num) hedge₂ hm hM (mul_lt_mul_of_pos_left (by norm_num) hpk)
  have hq := hD.areal_pos hd hx
  set m := ρ₀ / D.arealDensity 1 diameter enrichment with hmdef
  have hm0 : 0 < m := div_pos hρ₀ hq
  have harea : D.arealDensity m diameter enrichment = ρ₀ := by
    rw [areal_linear, hmdef]
    field_simp
  obtain ⟨R₁, R₂, e₁, e₂, hRR⟩ := hthick ρ₀ le_rfl
  -- a very narrow level
  have hsearch : ∀ Γ : ℝ, 3.8e-8 < 0.999 * max Γ (2 * Real.sqrt (Real.log 2) * d) := by
    intro Γ
    have : (1.66e-7 : ℝ) ≤ max Γ (2 * Real.sqrt (Real.log 2) * d) := by
      refine le_trans ?_ (le_max_right _ _)
      norm_num at h1 l1 ⊢
      nlinarith
    calc (3.8e-8 : ℝ) < 0.999 * 1.66e-7 := by norm_num
      _ ≤ _ := mul_le_mul_of_nonneg_left this (by norm_num)
  have hrun₂ : li6R k D 10000 m m diameter enrichment T 0.999 = .ok R₂ := by rw [run₂, harea]; exact e₂
  have hR₂ : 0 < R₂ := by
    obtain ⟨R, hR, h0, -⟩ := C135_li6 k hD (Γ := 10000) (by norm_num) hd hx hT.le (cov := 0.999) (by norm_num) (by norm_num)
      (hsearch _) hm0 hm0
    rw [hrun₂] at hR
    cases hR
    exact h0
  set K := Real.sqrt Real.pi / 2 * li6Peak k / d * D.arealDensity m diameter enrichment with hK
  have hK0 : 0 < K := by rw [hK, harea]; positivity
  set Γ₀ := min (0.004 * s) (R₂ / (2 * K)) with hΓ₀
  have hΓ₀0 : 0 < Γ₀ := lt_min (by positivity) (by positivity)
  obtain ⟨R₀, hR₀, -, -, hb⟩ := C135_li6 k hD hΓ₀0 hd hx hT.le (cov := 0.999) (by norm_num) (by norm_num) (hsearch _) hm0 hm0
  refine ⟨m, Γ₀, 0.008 * s, 10000, R₀, R₁, R₂, hm0, hΓ₀0, ?_, ?_, hR₀, by rw [run₁, harea]; exact e₁, hrun₂, ?_, hRR⟩
  · exact lt_of_le_of_lt (min_le_left _ _) (mul_lt_mul_of_pos_right (by norm_num) hs0)
  · norm_num
    linarith
  · have hb := hb hT
    rw [← hdd, ← hK] at hb
    have h3 : Γ₀ * K ≤ R₂ / (2 * K) * K := mul_le_mul_of_nonneg_right (min_le_right _ _) hK0.le
    have h4 : R₂ / (2 * K) * K = R₂ / 2 := by field_simp
    linarith

/-- The hypotheses of C196 are met by the notebook's effective temperature. -/
example : exLi6.Ok ∧ 1e-7 ≤ dopplerWidth exConst exLi6.m6 411 3.56288 ∧ dopplerWidth exConst exLi6.m6 411 3.56288 ≤ 1 := by
  refine ⟨⟨by norm_num [exLi6], by norm_num [exLi6], by norm_num [exLi6], by norm_num [exLi6], by norm_num [exLi6],
    by norm_num [exLi6], by norm_num [exLi6]⟩, ?_, ?_⟩
  · have h : (1e-7 : ℝ) ≤ Real.sqrt (2 * exConst.kB * 1e-6 * 411 / (exLi6.m6 * exConst.u)) :=
      Real.le_sqrt_of_sq_le (by norm_num [exConst, exLi6])
    unfold dopplerWidth
    nlinarith
  · have h : Real.sqrt (2 * exConst.kB * 1e-6 * 411 / (exLi6.m6 * exConst.u)) ≤ 1e-5 :=
      Real.sqrt_le_iff.2 ⟨by norm_num, by norm_num [exConst, exLi6]⟩
    unfold dopplerWidth
    nlinarith

/-- What remains of C196: levels that are narrow enough are recognized. For every width there is a smaller one below which all
self absorptions are smaller. -/
theorem C196_partial (k : PhysConst) {D : Li6Data} (hD : D.Ok) {T diameter enrichment cov : ℝ} (hT : 0 < T) (hd : 0 < diameter)
    (hx : 0 < enrichment) (h0 : 0 < cov) (h1 : cov < 1) (hc : 3.8e-8 < cov * (2 * Real.sqrt (Real.log 2) * dopplerWidth k D.m6 T 3.56288))
    {mA mS : ℝ} (hA : 0 < mA) (hS : 0 < mS) {Γ : ℝ} (hΓ : 0 < Γ) :
    ∃ R, li6R k D Γ mA mS diameter enrichment T cov = .ok R ∧ ∃ Γc, 0 < Γc ∧ ∀ Γ', 0 < Γ' → Γ' < Γc →
      ∃ R', li6R k D Γ' mA mS diameter enrichment T cov = .ok R' ∧ R' < R := by
  have hmax : ∀ Γ : ℝ, 3.8e-8 < cov * max Γ (2 * Real.sqrt (Real.log 2) * dopplerWidth k D.m6 T 3.56288) := fun Γ =>
    lt_of_lt_of_le hc (mul_le_mul_of_nonneg_left (le_max_right _ _) h0.le)
  obtain ⟨R, hR, hR0, -⟩ := C135_li6 k hD hΓ hd hx hT.le h0 h1 (hmax Γ) hA hS
  refine ⟨R, hR, ?_⟩
  set K := Real.sqrt Real.pi / 2 * li6Peak k / dopplerWidth k D.m6 T 3.56288 * D.arealDensity mA diameter enrichment with hK
  refine ⟨R / (|K| + 1), by positivity, fun Γ' h2 h3 => ?_⟩
  obtain ⟨R', hR', -, -, hb⟩ := C135_li6 k hD h2 hd hx hT.le h0 h1 (hmax Γ') hA hS
  refine ⟨R', hR', (hb hT).trans_lt ?_⟩
  rw [← hK]
  rw [lt_div_iff₀ (by positivity)] at h3
  nlinarith [le_abs_self K]

/-- For thick targets the resonance with the larger minimum between its limits has the larger self absorption, whatever the shapes of the resonances
are: the order does not depend on widths or maxima. -/
theorem C196_thick {r₁ r₂ : Reso} {σ₁ σ₂ : ℝ → ℝ} (h₁ : r₁.HasSigma σ₁) (h₂ : r₂.HasSigma σ₂) (c₁ : Continuous σ₁) (c₂ : Continuous σ₂)
    (p₁ : ∀ E, 0 < σ₁ E) (p₂ : ∀ E, 0 < σ₂ E) {a₁ b₁ a₂ b₂ z : ℝ} (hab₁ : a₁ < b₁) (hab₂ : a₂ < b₂) (hz : z ∈ Icc a₂ b₂)
    (hm : ∀ E ∈ Icc a₁ b₁, σ₂ z < σ₁ E) :
    ∃ ρ₀ : ℝ, 0 < ρ₀ ∧ ∀ ρ, ρ₀ ≤ ρ → ∃ R₁ R₂, selfAbsorption r₁ ρ ρ (a₁ - r₁.er) (b₁ - r₁.er) = .ok R₁ ∧
      selfAbsorption r₂ ρ ρ (a₂ - r₂.er) (b₂ - r₂.er) = .ok R₂ ∧ R₂ < R₁ := by
  obtain ⟨t, ht, hmin⟩ := isCompact_Icc.exists_isMinOn (nonempty_Icc.2 hab₁.le) c₁.continuousOn
  have hlt := hm t ht
  set M := (σ₂ z + σ₁ t) / 2 with hMd
  obtain ⟨x, y, hax, hxy, hyb, hM⟩ : ∃ x y, a₂ ≤ x ∧ x < y ∧ y ≤ b₂ ∧ ∀ E ∈ Icc x y, σ₂ E ≤ M := by
    have hev : ∀ᶠ E in 𝓝 z, σ₂ E < M := c₂.continuousAt.eventually_lt continuousAt_const (by simp only [hMd]; linarith)
    obtain ⟨ε, hε, hball⟩ := Metric.eventually_nhds_iff.1 hev
    refine ⟨max a₂ (z - ε / 2), min b₂ (z + ε / 2), le_max_left _ _, ?_, min_le_left _ _, fun E hE => (hball ?_).le⟩
    · rw [max_lt_iff, lt_min_iff, lt_min_iff]
      exact ⟨⟨hab₂, by linarith [hz.1]⟩, by linarith [hz.2], by linarith⟩
    · have h1 := (le_max_right _ _).trans hE.1
      have h2 := hE.2.trans (min_le_right _ _)
      rw [Real.dist_eq]
      exact abs_lt.2 ⟨by linarith, by linarith⟩
  exact thick_lt h₁ h₂ c₁ c₂ p₁ p₂ hab₁ hax hxy hyb (m := σ₁ t) (fun E hE => hmin hE) hM (by rw [hMd]; linarith)

end Ries
