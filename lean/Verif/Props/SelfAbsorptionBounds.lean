import Verif.Props.SelfAbsorption

/-! # Properties C135 and C136: limits of the self absorption, self absorption without Doppler broadening -/

open MeasureTheory Set Filter

namespace Ries

/-- C135: the self absorption lies between the attenuation in the absorber at the smallest and at the largest cross section between the
energy limits. -/
theorem C135_bounds {r : Reso} {σ : ℝ → ℝ} (hσ : r.HasSigma σ) (hc : Continuous σ) (hp : ∀ E, 0 < σ E) {lo hi : ℝ}
    (hlt : lo < hi) {m M : ℝ} (hm : ∀ E ∈ Icc lo hi, m ≤ σ E) (hM : ∀ E ∈ Icc lo hi, σ E ≤ M) {ρA ρS : ℝ} (hA : 0 ≤ ρA) (hS : 0 < ρS) :
    ∃ R, selfAbsorption r ρA ρS (lo - r.er) (hi - r.er) = .ok R ∧ 1 - Real.exp (-m * ρA) ≤ R ∧ R ≤ 1 - Real.exp (-M * ρA) := by
  obtain ⟨R, hR, hprop⟩ := C105_self_absorption hσ hc hp hlt
  refine ⟨_, hR ρA ρS hS, ?_⟩
  rw [(hprop ρS hS).1]
  have z : absorbed σ lo hi 0 ρS = ∫ E in lo..hi, scat (σ E) ρS := by rw [absorbed_eq]; simp
  have hd : 0 < absorbed σ lo hi 0 ρS := by rw [z]; exact scat_integral_pos hc hp hlt hS
  have hi1 : ∀ c : ℝ, IntervalIntegrable (fun E => c * scat (σ E) ρS) volume lo hi := fun c =>
    Continuous.intervalIntegrable (by unfold scat; fun_prop) _ _
  have hi2 : IntervalIntegrable (fun E => Real.exp (-σ E * ρA) * scat (σ E) ρS) volume lo hi :=
    Continuous.intervalIntegrable (by unfold scat; fun_prop) _ _
  have h1 : absorbed σ lo hi ρA ρS ≤ Real.exp (-m * ρA) * absorbed σ lo hi 0 ρS := by
    rw [z, absorbed_eq, ← intervalIntegral.integral_const_mul]
    refine intervalIntegral.integral_mono_on hlt.le hi2 (hi1 _) fun E hE => ?_
    refine mul_le_mul_of_nonneg_right (Real.exp_le_exp.2 ?_) (scat_pos (hp E) hS).le
    nlinarith [hm E hE]
  have h2 : Real.exp (-M * ρA) * absorbed σ lo hi 0 ρS ≤ absorbed σ lo hi ρA ρS := by
    rw [z, absorbed_eq, ← intervalIntegral.integral_const_mul]
    refine intervalIntegral.integral_mono_on hlt.le (hi1 _) hi2 fun E hE => ?_
    refine mul_le_mul_of_nonneg_right (Real.exp_le_exp.2 ?_) (scat_pos (hp E) hS).le
    nlinarith [hM E hE]
  have h3 := (div_le_iff₀ hd).2 h1
  have h4 := (le_div_iff₀ hd).2 h2
  constructor <;> linarith

/-- The maximum of the cross section for the excitation of 6Li from the ground state by photons, without Doppler broadening: `2π λ̄² g`. It does not
depend on the width of the level. -/
noncomputable def li6Peak (k : PhysConst) : ℝ := 2 * Real.pi * (k.hbarc / 3.56288) ^ 2 / 3

theorem li6_ics (k : PhysConst) {Γ amu : ℝ} {T : ℝ} {r : Reso} (h : mkVoigt k li6Ground (li6Excited Γ) amu T none = .ok r) :
    r.ics = li6Peak k * (Real.pi * Γ / 2) := by
  obtain ⟨r0, d, ps, hr0, -, rfl⟩ := build_inv (s := .voigt amu T) h
  simp only
  have hr0 : mkResonance k li6Ground (li6Excited Γ) none noRecoil = .ok r0 := hr0
  simp [mkResonance, statFactor, fdiv, branchingRatio, integratedCS, li6Ground, li6Excited, groundState, state,
    Level.partialWidths, lookup, Bind.bind, Except.bind, noRecoil] at hr0
  norm_num at hr0
  subst hr0
  simp only [li6Peak]
  ring

theorem coldVoigt_le_norm (er E : ℝ) {s g : ℝ} (hs : 0 < s) (hg : 0 < g) : coldVoigt er g E s ≤ 1 / (s * Real.sqrt (2 * Real.pi)) := by
  rw [← coldVoigt_eq er E g hs]
  unfold voigtDensity
  have e : normPdf 0 s 0 = 1 / (s * Real.sqrt (2 * Real.pi)) := by simp [normPdf]
  have hint : Integrable fun t => cauchyPdf er g (E - t) := (cauchy_good er hg).integrable.comp_sub_left E
  calc ∫ t, normPdf 0 s t * cauchyPdf er g (E - t) ≤ ∫ t, 1 / (s * Real.sqrt (2 * Real.pi)) * cauchyPdf er g (E - t) := by
        refine integral_mono (voigt_prod_integrable er hs hg E) (hint.const_mul _) fun t => ?_
        refine mul_le_mul_of_nonneg_right ?_ (cauchyPdf_pos hg _ _).le
        rw [← e]; exact (norm_peaked 0 hs).le_peak t
    _ = 1 / (s * Real.sqrt (2 * Real.pi)) := by
        rw [integral_const_mul, integral_sub_left_eq_self (cauchyPdf er g), (cauchy_good er hg).integral, mul_one]

/-- C135 for the notebook: whatever the width of the level, the temperature, the scatterer and the coverage, the self absorption is positive and
smaller than the attenuation at the maximum of the undisturbed resonance. At a positive temperature it is at most the width times a factor
that does not depend on the width, so that it vanishes for narrow levels. -/
theorem C135_li6 (k : PhysConst) {D : Li6Data} (hD : D.Ok) {Γ diameter enrichment T cov : ℝ} (hΓ : 0 < Γ) (hd : 0 < diameter)
    (hx : 0 < enrichment) (hT : 0 ≤ T) (h0 : 0 < cov) (h1 : cov < 1)
    (hc : 3.8e-8 < cov * max Γ (2 * Real.sqrt (Real.log 2) * dopplerWidth k D.m6 T 3.56288)) {mA mS : ℝ} (hA : 0 < mA) (hS : 0 < mS) :
    ∃ R, li6R k D Γ mA mS diameter enrichment T cov = .ok R ∧ 0 < R ∧
      R ≤ 1 - Real.exp (-li6Peak k * D.arealDensity mA diameter enrichment) ∧
      (0 < T → R ≤ Γ * (Real.sqrt Real.pi / 2 * li6Peak k / dopplerWidth k D.m6 T 3.56288 * D.arealDensity mA diameter enrichment)) := by
  obtain ⟨r, hr, her, hics⟩ := li6_voigt k hΓ hD.m6 T
  have hexc := li6_exc Γ
  have hg : 0 < Γ / 2 := by linarith
  have hsig := voigt_sigma hr hD.m6 hT hexc (li6_width Γ) hΓ
  have hv : IsVoigtOf r Γ (dopplerWidth k D.m6 T r.er) := ⟨k, _, _, _, T, none, hr, hD.m6, hT, hexc, li6_width Γ,
    getDopplerWidth_ok k hD.m6.ne' T r.er, hΓ.le, Or.inl hΓ⟩
  obtain ⟨hok, hdist, hpar⟩ := hv.inv
  obtain ⟨ci, lo, hi, hci, hlo, hhi, -, hlt⟩ := pv_coverage_lt hok (by rw [hdist]; rfl) (by rw [hdist]; rfl) hpar h0 h1
    (by rw [her]; exact hc)
  have hcont : Continuous fun E => r.ics * coldVoigt r.er (Γ / 2) E (dopplerWidth k D.m6 T r.er / Real.sqrt 2) :=
    continuous_const.mul (coldVoigt_continuous_energy r.er _ hg)
  have hpos := fun E => mul_pos hics (coldVoigt_pos r.er E (dopplerWidth k D.m6 T r.er / Real.sqrt 2) hg)
  have hq := hD.areal_pos hd hx
  have hee : (li6Excited Γ).exc = r.er := her.symm
  have eA := areal_linear D mA diameter enrichment
  have eS := areal_linear D mS diameter enrichment
  set ρA := D.arealDensity mA diameter enrichment with hρA
  set ρS := D.arealDensity mS diameter enrichment with hρS
  have hρA0 : 0 < ρA := by rw [eA]; exact mul_pos hq hA
  have hρS0 : 0 < ρS := by rw [eS]; exact mul_pos hq hS
  have hrun : li6R k D Γ mA mS diameter enrichment T cov = selfAbsorption r ρA ρS (lo - r.er) (hi - r.er) := by
    simp only [li6R, hr, hci, Bind.bind, Except.bind, hlo, hhi, hee, ← hρA, ← hρS]
  have hπ := Real.pi_pos
  have hpeak := li6_ics k hr
  have bound : ∀ M, (∀ E, r.ics * coldVoigt r.er (Γ / 2) E (dopplerWidth k D.m6 T r.er / Real.sqrt 2) ≤ M) →
      ∀ R, selfAbsorption r ρA ρS (lo - r.er) (hi - r.er) = .ok R → R ≤ 1 - Real.exp (-M * ρA) := by
    intro M hM R hR
    obtain ⟨R', hR', -, h2⟩ := C135_bounds hsig hcont hpos hlt (fun E _ => (hpos E).le) (fun E _ => hM E) hρA0.le hρS0
    rw [hR] at hR'
    cases hR'
    exact h2
  obtain ⟨R, hR, hprop⟩ := C105_self_absorption hsig hcont hpos hlt
  refine ⟨R ρA ρS, by rw [hrun]; exact hR _ _ hρS0, ?_, ?_, fun hT' => ?_⟩
  · obtain ⟨-, p0, p1, -⟩ := hprop ρS hρS0
    rw [← p0]
    exact p1 hρA0
  · refine bound _ (fun E => ?_) _ (hR _ _ hρS0)
    have := (coldVoigt_le r.er hg (s := dopplerWidth k D.m6 T r.er / Real.sqrt 2)
      (div_nonneg (dopplerWidth_nonneg _ _ _ (by rw [her]; norm_num)) (Real.sqrt_nonneg _)) E).2
    rw [coldVoigt_zero] at this
    refine (mul_le_mul_of_nonneg_left this hics.le).trans (le_of_eq ?_)
    rw [hpeak, cauchyPdf]
    field_simp
    simp
  · have hs : 0 < dopplerWidth k D.m6 T r.er := dopplerWidth_pos k hD.m6 hT' (by rw [her]; norm_num)
    have h2 : (0 : ℝ) < Real.sqrt 2 := by positivity
    have := bound _ (fun E => mul_le_mul_of_nonneg_left (coldVoigt_le_norm r.er E (div_pos hs h2) hg) hics.le) _ (hR _ _ hρS0)
    refine this.trans ?_
    rw [← her]
    have h3 := Real.add_one_le_exp (-(r.ics * (1 / (dopplerWidth k D.m6 T r.er / Real.sqrt 2 * Real.sqrt (2 * Real.pi)))) * ρA)
    refine le_trans (b := r.ics * (1 / (dopplerWidth k D.m6 T r.er / Real.sqrt 2 * Real.sqrt (2 * Real.pi))) * ρA) (by linarith)
      (le_of_eq ?_)
    rw [hpeak, Real.sqrt_mul (by norm_num)]
    have h4 : Real.sqrt Real.pi ^ 2 = Real.pi := Real.sq_sqrt hπ.le
    have h5 : (0 : ℝ) < Real.sqrt Real.pi := by positivity
    field_simp
    rw [h4]

/-- The hypotheses are met by the values of the notebook: a width of 8.17 eV, the effective temperature 411 K and the coverage 0.999. -/
example : exLi6.Ok ∧ (3.8e-8 : ℝ) < 0.999 * max 8.17e-6 (2 * Real.sqrt (Real.log 2) * dopplerWidth exConst exLi6.m6 411 3.56288) := by
  refine ⟨⟨by norm_num [exLi6], by norm_num [exLi6], by norm_num [exLi6], by norm_num [exLi6], by norm_num [exLi6],
    by norm_num [exLi6], by norm_num [exLi6]⟩, lt_of_lt_of_le ?_ (mul_le_mul_of_nonneg_left (le_max_left _ _) (by norm_num))⟩
  norm_num

/-! ## C136 -/

/-- C136: without Doppler broadening the self absorption does not depend on the width of the level. For a Breit-Wigner resonance all of whose
partial widths are multiplied by any factor, the self absorption between the limits of the coverage interval is the same number. -/
theorem C136_cold {k : PhysConst} {init inter : Level} {final : Option Level} {w : ℝ} {b : Reso}
    (hb : mkBreitWigner k init inter final = .ok b) (hw : inter.width = .ok w) (hpos : 0 < w) (hI : 0 < b.ics) {c : ℝ} (h0 : 0 < c)
    (h1 : c < 1) {ρA ρS : ℝ} (hA : 0 < ρA) (hS : 0 < ρS) :
    ∃ R, 0 < R ∧ R < 1 ∧ ∀ ε, 0 < ε → ∃ r ci lo hi, mkBreitWigner k init (inter.scaleWidths ε) final = .ok r ∧
      r.coverageInterval c = .ok ci ∧ ci.lo = .fin lo ∧ ci.hi = .fin hi ∧ selfAbsorption r ρA ρS (lo - r.er) (hi - r.er) = .ok R := by
  obtain ⟨b0, w', hb0, hw', rfl⟩ := mkBreitWigner_inv hb
  have hwε : ∀ ε, (inter.scaleWidths ε).width = .ok (ε * w) := fun ε => by rw [width_scale, hw]; rfl
  have hI0 : 0 < b0.ics := hI
  set t₀ := w / 2 * Real.tan (Real.pi * (0.5 * (1 - c)) - Real.pi / 2) with ht₀
  set t₁ := w / 2 * Real.tan (Real.pi * (0.5 * (1 + c)) - Real.pi / 2) with ht₁
  set f : ℝ → ℝ := fun y => b0.ics * cauchyPdf 0 (w / 2) y with hf
  have hπ := Real.pi_pos
  have key : ∀ ε, 0 < ε → ∃ r ci, mkBreitWigner k init (inter.scaleWidths ε) final = .ok r ∧ r.coverageInterval c = .ok ci ∧
      r.er = b0.er ∧ ci.lo = .fin (b0.er + ε * t₀) ∧ ci.hi = .fin (b0.er + ε * t₁) ∧
      r.HasSigma (fun E => f (ε⁻¹ * (E - b0.er))) := by
    intro ε hε
    have hr0 := resonance_scale hε.ne' hb0
    have hA := analytic_cauchy (r := { b0 with ics := ε * b0.ics, dist := cauchyDist, params := [b0.er, 0.5 * (ε * w)] })
        rfl rfl (by positivity)
    obtain ⟨ci, hci, hlo, hhi, -⟩ := hA.coverage h0.le h1 (v := cauchyCdf 0 1 0) (by
      simp [cauchyDist, scipyDist, locScale, Bind.bind, Except.bind])
    refine ⟨_, ci, by simp only [mkBreitWigner, hr0, hwε, Bind.bind, Except.bind], hci, rfl, ?_, ?_, ?_⟩
    · rw [hlo, cauchyPpf, ht₀]; congr 1; ring
    · rw [hhi, cauchyPpf, ht₁]; congr 1; ring
    · have h := hA.sigma
      have e : (fun E => ε * b0.ics * cauchyPdf b0.er (0.5 * (ε * w)) E) = fun E => f (ε⁻¹ * (E - b0.er)) := by
        funext E
        simp only [hf, cauchyPdf, sub_zero]
        have h2 : (E - b0.er) / (0.5 * (ε * w)) = ε⁻¹ * (E - b0.er) / (w / 2) := by field_simp; ring
        rw [h2]
        have : 0 < 1 + (ε⁻¹ * (E - b0.er) / (w / 2)) ^ 2 := by positivity
        generalize 1 + (ε⁻¹ * (E - b0.er) / (w / 2)) ^ 2 = z at this
        field_simp
        ring
      rw [← e]; exact h
  have htlt : t₀ < t₁ := by
    have hw2 : 0 < w / 2 := by linarith
    have e0 := cauchyPpf_spec 0 hw2 (q := 0.5 * (1 - c)) (by linarith) (by linarith)
    have e1 := cauchyPpf_spec 0 hw2 (q := 0.5 * (1 + c)) (by linarith) (by linarith)
    have : cauchyPpf 0 (w / 2) (0.5 * (1 - c)) < cauchyPpf 0 (w / 2) (0.5 * (1 + c)) := by
      rw [← (cauchy_good 0 hw2).strictMono.lt_iff_lt, e0, e1]
      linarith
    simpa [cauchyPpf] using this
  have same : ∀ ε, 0 < ε → ∀ r : Reso, r.er = b0.er → r.HasSigma (fun E => f (ε⁻¹ * (E - b0.er))) →
      selfAbsorption r ρA ρS (ε * t₀) (ε * t₁) = 
        (if (∫ y in t₀..t₁, 1 - Real.exp (-f y * ρS)) = 0 then .error .zeroDivision else
          .ok (1 - (∫ y in t₀..t₁, Real.exp (-f y * ρA) * (1 - Real.exp (-f y * ρS))) / ∫ y in t₀..t₁, 1 - Real.exp (-f y * ρS))) := by
    intro ε hε r her hσ
    have h1 : ∀ e, r.rel e = f (ε⁻¹ * e) := by
      intro e
      rw [rel_eq hσ, her, add_sub_cancel_right]
    have hint : ∀ F : ℝ → ℝ, (∫ e in (ε * t₀)..(ε * t₁), F (ε⁻¹ * e)) = ε * ∫ y in t₀..t₁, F y := by
      intro F
      rw [intervalIntegral.integral_comp_mul_left F (inv_ne_zero hε.ne')]
      simp [hε.ne']
    simp only [selfAbsorption, fluxDensity, h1]
    rw [hint fun y => 1 - Real.exp (-f y * ρS), hint fun y => Real.exp (-f y * ρA) * (1 - Real.exp (-f y * ρS))]
    simp only [mul_eq_zero, hε.ne', false_or, mul_div_mul_left _ _ hε.ne']
  obtain ⟨r₁, ci₁, -, -, her₁, -, -, hσ₁⟩ := key 1 one_pos
  obtain ⟨R, hR, hprop⟩ := C105_self_absorption hσ₁ (lo := b0.er + t₀) (hi := b0.er + t₁)
    (by
      have := (cauchy_good 0 (show 0 < w / 2 by linarith)).cont
      exact continuous_const.mul (this.comp (by fun_prop)))
    (fun E => mul_pos hI0 (cauchyPdf_pos (by linarith) _ _)) (by linarith)
  have hR1 := hR ρA ρS hS
  rw [her₁, add_sub_cancel_left, add_sub_cancel_left] at hR1
  have h1 := same 1 one_pos r₁ her₁ hσ₁
  rw [one_mul, one_mul, hR1] at h1
  obtain ⟨-, p0, p1, p2, -⟩ := hprop ρS hS
  refine ⟨R ρA ρS, by rw [← p0]; exact p1 hA, p2 ρA, fun ε hε => ?_⟩
  obtain ⟨r, ci, hr, hci, her, hlo, hhi, hσ⟩ := key ε hε
  refine ⟨r, ci, _, _, hr, hci, hlo, hhi, ?_⟩
  rw [her, add_sub_cancel_left, add_sub_cancel_left, same ε hε r her hσ, ← h1]

/-- The hypotheses are met. -/
example : ∃ (b : Reso) (w : ℝ), mkBreitWigner exConst exGround exMid none = .ok b ∧ exMid.width = .ok w ∧ 0 < w ∧ 0 < b.ics := by
  obtain ⟨r, h, he, hi⟩ := exMid_resonance
  exact ⟨{ r with dist := cauchyDist, params := [r.er, 0.5 * 1e-5] }, 1e-5,
    by simp [mkBreitWigner, h, exMid_width, Bind.bind, Except.bind], exMid_width, by norm_num, hi⟩

end Ries
