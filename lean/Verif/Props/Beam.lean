import Verif.Model.Beam
import Verif.Props.Attenuation
import Verif.Props.Shapes
import Verif.Props.DarbouxConv
import Verif.Lemmas.SelfAbsorption

/-! # Property C132: reactions in a thick target -/

open MeasureTheory Set

namespace Ries

/-- C132: the number of reactions grows with the thickness of the target, but two targets one behind the other give fewer reactions than
the two separately. In particular twice the thickness gives more, but less than twice as many reactions. -/
theorem C132_doubling {nr r : Callable} {a b : ℝ → ℝ} (ha : HasValues nr a) (hb : HasValues r b) {x : ℝ} (hx : 0 < x)
    (ha0 : ∀ E, 0 ≤ a E) (hb0 : ∀ E, 0 < b E) {E₀ E₁ : ℝ} (hE : E₀ < E₁) (hai : IntervalIntegrable a volume E₀ E₁)
    (hbi : IntervalIntegrable b volume E₀ E₁) {d e : ℝ} (hd : 0 < d) (he : 0 < e) :
    0 < countRate nr r x E₀ E₁ d ∧ countRate nr r x E₀ E₁ d < countRate nr r x E₀ E₁ (d + e) ∧
    countRate nr r x E₀ E₁ (d + e) < countRate nr r x E₀ E₁ d + countRate nr r x E₀ E₁ e := by
  have hc : ∀ E, 0 < a E + x * b E := fun E => add_pos_of_nonneg_of_pos (ha0 E) (mul_pos hx (hb0 E))
  have hxb : ∀ E, 0 < x * b E := fun E => mul_pos hx (hb0 E)
  have hmeas : ∀ ρ, AEStronglyMeasurable (fun E => Real.exp (-(a E + x * b E) * ρ)) (volume.restrict (uIoc E₀ E₁)) := by
    intro ρ
    have h1 : AEStronglyMeasurable a (volume.restrict (uIoc E₀ E₁)) := hai.def'.aestronglyMeasurable
    have h2 : AEStronglyMeasurable b (volume.restrict (uIoc E₀ E₁)) := hbi.def'.aestronglyMeasurable
    exact Real.continuous_exp.comp_aestronglyMeasurable (((h1.add (h2.const_mul x)).neg).mul_const ρ)
  have hint : ∀ ρ, 0 ≤ ρ → IntervalIntegrable (fun E => x * b E * Real.exp (-(a E + x * b E) * ρ)) volume E₀ E₁ := by
    intro ρ hρ
    refine (hbi.const_mul x).mono_fun (((hbi.const_mul x).def'.aestronglyMeasurable).mul (hmeas ρ)) ?_
    refine Filter.Eventually.of_forall fun E => ?_
    beta_reduce
    rw [norm_mul]
    refine mul_le_of_le_one_right (norm_nonneg _) ?_
    rw [Real.norm_of_nonneg (Real.exp_pos _).le, Real.exp_le_one_iff]
    have := mul_nonneg (hc E).le hρ
    linarith
  set G : ℝ → ℝ := fun ρ => ∫ E in E₀..E₁, x * b E * Real.exp (-(a E + x * b E) * ρ) with hG
  have hcr : ∀ d, countRate nr r x E₀ E₁ d = ∫ ρ in (0 : ℝ)..d, G ρ := by
    intro d
    simp only [countRate, nquad2, layerAlpha_ok ha hb, valueOf, hG]
  have hpos : ∀ ρ, 0 ≤ ρ → 0 < G ρ := fun ρ hρ =>
    intervalIntegral.intervalIntegral_pos_of_pos_on (hint ρ hρ) (fun E _ => mul_pos (hxb E) (Real.exp_pos _)) hE
  have hlt : ∀ ρ ρ', 0 ≤ ρ → ρ < ρ' → G ρ' < G ρ := by
    intro ρ ρ' h0 h
    rw [← sub_pos, hG]
    beta_reduce
    rw [← intervalIntegral.integral_sub (hint ρ h0) (hint ρ' (h0.trans h.le))]
    refine intervalIntegral.intervalIntegral_pos_of_pos_on ((hint ρ h0).sub (hint ρ' (h0.trans h.le))) (fun E _ => ?_) hE
    rw [sub_pos]
    refine mul_lt_mul_of_pos_left (Real.exp_lt_exp.2 ?_) (hxb E)
    have := mul_lt_mul_of_pos_left h (hc E)
    linarith
  have hanti : AntitoneOn G (Ici 0) := by
    intro ρ hρ ρ' _ h
    rcases h.eq_or_lt with rfl | h
    · exact le_rfl
    · exact (hlt ρ ρ' hρ h).le
  have hI : ∀ s t, 0 ≤ s → 0 ≤ t → IntervalIntegrable G volume s t := fun s t hs ht =>
    (hanti.mono (fun y hy => (le_min hs ht).trans hy.1)).intervalIntegrable
  have hadd : (∫ ρ in (0 : ℝ)..(d + e), G ρ) = (∫ ρ in (0 : ℝ)..d, G ρ) + ∫ ρ in d..(d + e), G ρ :=
    (intervalIntegral.integral_add_adjacent_intervals (hI 0 d le_rfl hd.le) (hI d (d + e) hd.le (by linarith))).symm
  have hshift : (∫ ρ in d..(d + e), G ρ) = ∫ ρ in (0 : ℝ)..e, G (ρ + d) := by
    rw [intervalIntegral.integral_comp_add_right]
    congr 1 <;> ring
  have hIs : IntervalIntegrable (fun ρ => G (ρ + d)) volume 0 e :=
    AntitoneOn.intervalIntegrable fun y hy z hz h => by
      rw [uIcc_of_le he.le] at hy hz
      exact hanti (add_nonneg hy.1 hd.le) (add_nonneg hz.1 hd.le) (by linarith)
  rw [hcr, hcr, hcr, hadd, hshift]
  refine ⟨intervalIntegral.intervalIntegral_pos_of_pos_on (hI 0 d le_rfl hd.le) (fun ρ h => hpos ρ h.1.le) hd, ?_, ?_⟩
  · have := intervalIntegral.intervalIntegral_pos_of_pos_on hIs (fun ρ h => hpos (ρ + d) (by linarith [h.1])) he
    linarith
  · have : 0 < ∫ ρ in (0 : ℝ)..e, (G ρ - G (ρ + d)) :=
      intervalIntegral.intervalIntegral_pos_of_pos_on ((hI 0 e le_rfl he.le).sub hIs)
        (fun ρ h => sub_pos.2 (hlt ρ (ρ + d) h.1.le (by linarith))) he
    rw [intervalIntegral.integral_sub (hI 0 e le_rfl he.le) hIs] at this
    linarith

example : HasValues (fun _ => .ok 1) (fun _ => 1) ∧ HasValues (fun E => .ok (1 + E ^ 2)) (fun E => 1 + E ^ 2) ∧
    IntervalIntegrable (fun E : ℝ => 1 + E ^ 2) volume 0 1 :=
  ⟨fun _ => rfl, fun _ => rfl, Continuous.intervalIntegrable (by fun_prop) _ _⟩

/-- the cross sections of all four shapes are continuous, positive and peaked at the resonance energy -/
theorem shape_sigma {r : Reso} (h : IsBreitWigner r ∨ IsGauss r ∨ IsPseudoVoigt r ∨ IsVoigt r) (hI : 0 < r.ics) :
    ∃ σ, r.HasSigma σ ∧ Continuous σ ∧ Peaked r.er σ ∧ ∀ E, 0 < σ E := by
  have key : ∀ p, Continuous p → Peaked r.er p → (∀ x, 0 < p x) → (r.HasSigma fun E => r.ics * p E) →
      ∃ σ, r.HasSigma σ ∧ Continuous σ ∧ Peaked r.er σ ∧ ∀ E, 0 < σ E := fun p h1 h2 h3 h4 =>
    ⟨_, h4, continuous_const.mul h1, h2.const_mul hI, fun E => mul_pos hI (h3 E)⟩
  rcases h with h | h | h | h
  · obtain ⟨s, hs, hd, hp⟩ := h.inv
    exact key _ (cauchy_good r.er hs).cont (cauchy_peaked r.er hs) (cauchyPdf_pos hs _) (analytic_cauchy hd hp hs).sigma
  · obtain ⟨s, hs, hd, hp⟩ := h.inv
    exact key _ (norm_good r.er hs).cont (norm_peaked r.er hs) (normPdf_pos hs _) (analytic_norm hd hp hs).sigma
  · obtain ⟨w, d, hok, -, hd, hp⟩ := h.inv
    exact key _ hok.good.cont hok.peaked hok.good.pos (pv_sigma hok hd hp)
  · obtain ⟨k, init, inter, amu, T, final, w, hr, ha, hT, hE, hw, hw0, hne⟩ := h
    have her : r.er = inter.exc - init.exc := by
      obtain ⟨r0, d, ps, hr0, hd, rfl⟩ := build_inv (s := .voigt amu T) hr
      exact (mkResonance_inv hr0).1
    have hpe : 0 < r.er := by rw [her]; linarith
    rcases hw0.eq_or_lt with rfl | hpos
    · have hs : 0 < dopplerWidth k amu T r.er / Real.sqrt 2 := by
        have := dopplerWidth_pos k ha (hne.resolve_left (lt_irrefl _)) hpe
        positivity
      refine key _ (norm_good r.er hs).cont (norm_peaked r.er hs) (normPdf_pos hs _) fun E => ?_
      rw [voigt_call hr ha.ne' hw, voigtProfile, if_neg hs.ne', if_pos (by norm_num), normPdf_shift]
      rfl
    · rcases hT.eq_or_lt with rfl | hT0
      · have hg : 0 < 0.5 * w := by linarith
        refine key _ (cauchy_good r.er hg).cont (cauchy_peaked r.er hg) (cauchyPdf_pos hg _) fun E => ?_
        have h0 : dopplerWidth k amu 0 r.er = 0 := by simp [dopplerWidth]
        rw [voigt_call hr ha.ne' hw, voigtProfile, h0, if_pos (by simp), if_neg hg.ne', cauchyPdf_shift]
        rfl
      · have hs : 0 < dopplerWidth k amu T r.er / Real.sqrt 2 := by
          have := dopplerWidth_pos k ha hT0 hpe
          positivity
        have hg : 0 < w / 2 := by linarith
        refine key _ ?_ (voigt_peaked r.er hs hg) (voigt_pos _ hs hg) ?_
        · have := coldVoigt_continuous_energy r.er (dopplerWidth k amu T r.er / Real.sqrt 2) hg
          convert this using 2
          exact coldVoigt_eq _ _ _ hs
        · obtain ⟨σ, h1, h2, -⟩ := C35_convolution hr ha hT0 hE hw hpos
          rw [show (fun E => r.ics * voigtDensity r.er (dopplerWidth k amu T r.er / Real.sqrt 2) (w / 2) E) = σ from
            funext fun E => (h2 E).symm]
          exact h1

theorem callable_values {r : Reso} {σ : ℝ → ℝ} (h : r.HasSigma σ) : HasValues r.callable σ := fun E => by
  simp [Reso.callable, h E]

theorem beam_flux {B : BeamInTarget} {σ κ : ℝ → ℝ} (hs : HasValues B.sigma σ) (hk : HasValues B.kappa κ) (Z E : ℝ) :
    B.photonFluxDensity Z E = .ok (Real.exp (-(κ E + σ E) * Z)) := by
  simp [BeamInTarget.photonFluxDensity, hs E, hk E, bind, Except.bind]

theorem beam_abs {B : BeamInTarget} {σ κ : ℝ → ℝ} (hs : HasValues B.sigma σ) (hk : HasValues B.kappa κ) (Z E : ℝ) :
    B.resonanceAbsorptionDensity Z E = .ok (σ E * Real.exp (-(κ E + σ E) * Z)) := by
  simp [BeamInTarget.resonanceAbsorptionDensity, beam_flux hs hk, hs E, bind, Except.bind]

/-- C132: behind a target of any thickness the spectrum has a hole at the resonance energy, if the nonresonant cross section does not depend
on the energy: the flux is smallest there and nowhere else. It is a number between 0 and 1. -/
theorem C132_hole {r : Reso} (h : IsBreitWigner r ∨ IsGauss r ∨ IsPseudoVoigt r ∨ IsVoigt r) (hI : 0 < r.ics) {K : ℝ} (hK : 0 ≤ K)
    {Z : ℝ} (hZ : 0 < Z) {E : ℝ} (hE : E ≠ r.er) :
    ∃ p₀ p, (BeamInTarget.mk r.callable fun _ => .ok K).photonFluxDensity Z r.er = .ok p₀ ∧
      (BeamInTarget.mk r.callable fun _ => .ok K).photonFluxDensity Z E = .ok p ∧ 0 < p₀ ∧ p₀ < p ∧ p < 1 := by
  obtain ⟨σ, hσ, -, hp, hpos⟩ := shape_sigma h hI
  have hk : HasValues (fun _ => .ok K) (fun _ => K) := fun _ => rfl
  refine ⟨_, _, beam_flux (B := ⟨r.callable, fun _ => .ok K⟩) (callable_values hσ) hk Z r.er,
    beam_flux (B := ⟨r.callable, fun _ => .ok K⟩) (callable_values hσ) hk Z E, Real.exp_pos _, ?_, ?_⟩
  · have := hp.lt_of_abs (d := 0) (e := E - r.er) (by simpa using sub_ne_zero.2 hE)
    rw [add_zero, add_sub_cancel] at this
    have := mul_lt_mul_of_pos_right this hZ
    exact Real.exp_lt_exp.2 (by linarith)
  · rw [Real.exp_lt_one_iff]
    have := mul_pos (add_pos_of_nonneg_of_pos hK (hpos E)) hZ
    linarith

/-- `s e^(-s Z)` decreases for `s Z ≥ 1`, and increases up to there. -/
theorem absorb_lt {Z s t : ℝ} (hZ : 0 < Z) (hs : 1 ≤ s * Z) (hst : s < t) : t * Real.exp (-(t * Z)) < s * Real.exp (-(s * Z)) := by
  have h1 : 0 < (t - s) * Z := mul_pos (sub_pos.2 hst) hZ
  have h2 := Real.add_one_lt_exp h1.ne'
  have hs0 : 0 < s := by
    by_contra hc
    have := mul_nonpos_of_nonpos_of_nonneg (not_lt.1 hc) hZ.le
    linarith
  have h3 : t < s * Real.exp ((t - s) * Z) := by nlinarith
  calc t * Real.exp (-(t * Z)) < s * Real.exp ((t - s) * Z) * Real.exp (-(t * Z)) := mul_lt_mul_of_pos_right h3 (Real.exp_pos _)
    _ = s * Real.exp (-(s * Z)) := by rw [mul_assoc, ← Real.exp_add]; congr 2; ring

theorem absorb_le {Z s t : ℝ} (hs : 0 < s) (hst : s ≤ t) (ht : t * Z ≤ 1) :
    s * Real.exp (-(s * Z)) ≤ t * Real.exp (-(t * Z)) := by
  have h1 : 1 - (t - s) * Z ≤ Real.exp (-((t - s) * Z)) := by linarith [Real.add_one_le_exp (-((t - s) * Z))]
  have h3 : s ≤ t * Real.exp (-((t - s) * Z)) := by
    have : 0 ≤ (t - s) * (1 - t * Z) := mul_nonneg (sub_nonneg.2 hst) (by linarith)
    have := mul_le_mul_of_nonneg_left h1 (hs.le.trans hst)
    nlinarith
  calc s * Real.exp (-(s * Z)) ≤ t * Real.exp (-((t - s) * Z)) * Real.exp (-(s * Z)) :=
        mul_le_mul_of_nonneg_right h3 (Real.exp_pos _).le
    _ = t * Real.exp (-(t * Z)) := by rw [mul_assoc, ← Real.exp_add]; congr 2; ring

/-- C132: the absorption density at the depth `Z` has its maximum at the resonance energy exactly up to the depth at which the resonant
attenuation at the maximum is one mean free path. Deeper in the target, more photons are absorbed beside the resonance energy. -/
theorem C132_absorption_maximum {r : Reso} (h : IsBreitWigner r ∨ IsGauss r ∨ IsPseudoVoigt r ∨ IsVoigt r) (hI : 0 < r.ics) {σ : ℝ → ℝ}
    (hσ : r.HasSigma σ) (K : ℝ) {Z : ℝ} (hZ : 0 < Z) :
    (∀ E, valueOf ((BeamInTarget.mk r.callable fun _ => .ok K).resonanceAbsorptionDensity Z E) ≤
      valueOf ((BeamInTarget.mk r.callable fun _ => .ok K).resonanceAbsorptionDensity Z r.er)) ↔ σ r.er * Z ≤ 1 := by
  obtain ⟨σ', hσ', hc, hp, hpos⟩ := shape_sigma h hI
  obtain rfl := sigma_unique hσ hσ'
  have hk : HasValues (fun _ => .ok K) (fun _ => K) := fun _ => rfl
  have ev : ∀ E, valueOf ((BeamInTarget.mk r.callable fun _ => .ok K).resonanceAbsorptionDensity Z E) =
      Real.exp (-(K * Z)) * (σ E * Real.exp (-(σ E * Z))) := by
    intro E
    rw [beam_abs (B := ⟨r.callable, fun _ => .ok K⟩) (callable_values hσ) hk, valueOf, mul_left_comm, ← Real.exp_add]
    congr 2; ring
  simp only [ev]
  constructor
  · intro hmax
    by_contra hc1
    push Not at hc1
    have hcont : Filter.Tendsto (fun E => σ E * Z) (nhdsWithin r.er (Ioi r.er)) (nhds (σ r.er * Z)) :=
      ((hc.tendsto r.er).mul_const Z).mono_left nhdsWithin_le_nhds
    obtain ⟨E, hE1, hE2⟩ := ((hcont.eventually (lt_mem_nhds hc1)).and self_mem_nhdsWithin).exists
    have hlt := hp.lt_of_abs (d := 0) (e := E - r.er) (by simpa using (sub_ne_zero.2 (ne_of_gt hE2)))
    rw [add_zero, add_sub_cancel] at hlt
    have h1 := absorb_lt hZ hE1.le hlt
    exact absurd (hmax E) (not_le.2 (mul_lt_mul_of_pos_left h1 (Real.exp_pos _)))
  · intro hle E
    exact mul_le_mul_of_nonneg_left (absorb_le (hpos E) (hp.le_peak E) hle) (Real.exp_pos _).le

example : ∃ r, (IsBreitWigner r ∨ IsGauss r ∨ IsPseudoVoigt r ∨ IsVoigt r) ∧ 0 < r.ics := by
  obtain ⟨r, h, -, hI⟩ := exMid_resonance
  exact ⟨{ r with dist := cauchyDist, params := [r.er, 0.5 * 1e-5] }, Or.inl
    ⟨exConst, exGround, exMid, none, 1e-5, by simp [mkBreitWigner, h, exMid_width, Bind.bind, Except.bind], exMid_width, by norm_num⟩, hI⟩

end Ries
