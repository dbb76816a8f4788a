import Verif.Lemmas.VoigtRelative

/-! # Property C181, Voigt: upper bound for the wings when the temperature changes -/

namespace Ries

/-- C181, temperature and mass, Voigt: if the ratio of temperature and mass grows by a factor `f` of at most 2, the cross section grows at no energy
by more than the power `2 (1 - 1 / f)` of `√2 P / σ`, where `P` is the maximum of the Breit-Wigner cross section. In units of half the
natural width, with the distance `x` from the resonance and the Doppler width `y` (divided by √2), `P / σ` is at most `1 + x² + y²`. -/
theorem C181_voigt_wings {k : PhysConst} {init inter : Level} {final : Option Level} {amu amu' T T' w : ℝ} {r r' b : Reso}
    (hr : mkVoigt k init inter amu T final = .ok r) (hr' : mkVoigt k init inter amu' T' final = .ok r')
    (hb : mkBreitWigner k init inter final = .ok b) (ha : 0 < amu) (ha' : 0 < amu') (hT : 0 < T) (hE : init.exc < inter.exc)
    (hw : inter.width = .ok w) (hpos : 0 < w) (hI : 0 < r.ics) {f : ℝ} (hf1 : 1 ≤ f) (hf2 : f ≤ 2) (h : T' / amu' = f * (T / amu)) :
    ∃ (P : ℝ) (σ σ' : ℝ → ℝ), b.call b.er = .ok (.fin P) ∧ r.HasSigma σ ∧ r'.HasSigma σ' ∧ ∀ E, 0 < σ E ∧
      σ' E ≤ (Real.sqrt 2 * P / σ E) ^ (2 * (1 - 1 / f)) * σ E ∧
      P / σ E ≤ 1 + ((E - r.er) / (w / 2)) ^ 2 + (dopplerWidth k amu T r.er / Real.sqrt 2 / (w / 2)) ^ 2 := by
  have hpi := Real.pi_pos
  have hf0 : 0 < f := by linarith
  have hT' : 0 < T' := by
    have : 0 < T' / amu' := by rw [h]; positivity
    exact (div_pos_iff_of_pos_right ha').1 this
  have v1 := voigt_sigma hr ha hT.le hE hw hpos
  have v2 := voigt_sigma hr' ha' hT'.le hE hw hpos
  obtain ⟨r0, d, ps, hr0, -, rfl⟩ := build_inv (s := .voigt amu T) hr
  obtain ⟨r0', d', ps', hr0', -, rfl⟩ := build_inv (s := .voigt amu' T') hr'
  have h1 : mkResonance k init inter final noRecoil = .ok r0 := hr0
  have h2 : mkResonance k init inter final noRecoil = .ok r0' := hr0'
  rw [h1] at h2; cases h2
  obtain ⟨b0, w', hb0, hw', rfl⟩ := mkBreitWigner_inv hb
  rw [hw] at hw'; cases hw'
  rw [h1] at hb0; cases hb0
  simp only at v1 v2 hI ⊢
  have hpe : 0 < r0.er := by rw [(mkResonance_inv h1).1]; unfold noRecoil; linarith
  have hg : 0 < w / 2 := by positivity
  have hw2 : 0.5 * w = w / 2 := by ring
  have d1 := dopplerWidth_pos k ha hT hpe
  have d2 := dopplerWidth_pos k ha' hT' hpe
  have hpeak : cauchyPdf r0.er (w / 2) r0.er = 1 / (Real.pi * (w / 2)) := by unfold cauchyPdf; simp
  have er : dopplerWidth k amu T r0.er / Real.sqrt 2 / (dopplerWidth k amu' T' r0.er / Real.sqrt 2) = Real.sqrt (1 / f) := by
    rw [div_div_div_cancel_right₀ (by positivity), dopplerWidth_ratio k ha ha' hT hT' hpe, h]
    congr 1
    field_simp
  have er2 : (dopplerWidth k amu T r0.er / Real.sqrt 2 / (dopplerWidth k amu' T' r0.er / Real.sqrt 2)) ^ 2 = 1 / f := by
    rw [er, Real.sq_sqrt (by positivity)]
  have hle : dopplerWidth k amu T r0.er / Real.sqrt 2 ≤ dopplerWidth k amu' T' r0.er / Real.sqrt 2 := by
    have h3 : Real.sqrt (1 / f) ≤ 1 := Real.sqrt_le_one.2 ((div_le_one hf0).2 hf1)
    rw [← er, div_le_one (by positivity)] at h3
    exact h3
  refine ⟨r0.ics * cauchyPdf r0.er (w / 2) r0.er, _, _, ?_, v1, v2, fun E => ?_⟩
  · simp only [Reso.call, cauchyDist, scipyDist, locScale, bind, Except.bind, hg, if_true, Fl.smul, hw2]
  set s := dopplerWidth k amu T r0.er / Real.sqrt 2 with hs
  set s' := dopplerWidth k amu' T' r0.er / Real.sqrt 2
  have hs0 : 0 < s := by positivity
  have hV := coldVoigt_pos r0.er E s hg
  have e2 : 1 / 2 ≤ 1 / f := one_div_le_one_div_of_le hf0 hf2
  refine ⟨mul_pos hI hV, ?_, ?_⟩
  · have ht := coldVoigt_tempered r0.er E hg hs0 hle (by rw [er2]; linarith)
    rw [er2] at ht
    have e : Real.sqrt 2 * (r0.ics * cauchyPdf r0.er (w / 2) r0.er) / (r0.ics * coldVoigt r0.er (w / 2) E s) =
        Real.sqrt 2 / (Real.pi * (w / 2) * coldVoigt r0.er (w / 2) E s) := by
      rw [hpeak]
      field_simp
    rw [e]
    have := mul_le_mul_of_nonneg_left ht hI.le
    linarith
  · have hJ := coldVoigt_jensen r0.er E s hg
    rw [hpeak, mul_div_mul_left _ _ hI.ne', div_le_iff₀ hV]
    have hX : 0 < 1 + ((E - r0.er) / (w / 2)) ^ 2 + (s / (w / 2)) ^ 2 := by positivity
    rw [div_le_iff₀ hX] at hJ
    linarith

/-- a level of 10 eV at 293 K and at 300 K -/
example : ∃ v v' b, mkVoigt exConst exGround exMid 11 293 none = .ok v ∧ mkVoigt exConst exGround exMid 11 300 none = .ok v' ∧
    mkBreitWigner exConst exGround exMid none = .ok b ∧ exGround.exc < exMid.exc ∧ exMid.width = .ok 1e-5 ∧ 0 < v.ics ∧
    (1 : ℝ) ≤ 300 / 293 ∧ (300 / 293 : ℝ) ≤ 2 ∧ (300 : ℝ) / 11 = 300 / 293 * (293 / 11) := by
  obtain ⟨r, hr, he, hI⟩ := exMid_resonance
  have hv : ∀ T : ℝ, mkVoigt exConst exGround exMid 11 T none =
      .ok { r with dist := (mkPV r.er 1e-5 (dopplerWidth exConst 11 T r.er)).toSemiDist, params := [] } := fun T => by
    simp [mkVoigt, mkPseudoVoigt, hr, exMid_width, getDopplerWidth_ok exConst (show (11 : ℝ) ≠ 0 by norm_num), Bind.bind, Except.bind]
  exact ⟨_, _, { r with dist := cauchyDist, params := [r.er, 0.5 * 1e-5] }, hv 293, hv 300,
    by simp [mkBreitWigner, hr, exMid_width, Bind.bind, Except.bind],
    by norm_num [exGround, exMid, groundState, state], exMid_width, hI, by norm_num, by norm_num, by norm_num⟩

end Ries
