import Verif.Model.Unphysical
import Verif.Props.DopplerSpread
import Verif.Props.SelfAbsorption

/-!
# C182: unphysical parameters are not turned into a cross section
-/

namespace Ries

/-- mass and temperature of a resonance class, if it has them -/
def Shape.thermal : Shape → Option (ℝ × ℝ)
  | .box _ | .breitWigner => none
  | .gauss a T | .pseudoVoigt a T | .voigt a T => some (a, T)

theorem dopplerWidthFl_zero (k : PhysConst) (T E : ℝ) : dopplerWidthFl k 0 T E = .error .zeroDivision := by
  simp [dopplerWidthFl, fdiv, Bind.bind, Except.bind]

theorem dopplerWidthFl_neg (k : PhysConst) {amu T : ℝ} (h : T / amu < 0) (E : ℝ) : dopplerWidthFl k amu T E = .ok .nan := by
  have ha : amu ≠ 0 := by rintro rfl; simp at h
  have hu := k.u_pos
  have hx : 2 * k.kB * 1e-6 * T / (amu * k.u) < 0 := by
    have e : 2 * k.kB * 1e-6 * T / (amu * k.u) = 2 * k.kB * 1e-6 / k.u * (T / amu) := by field_simp
    rw [e]
    have := k.kB_pos
    exact mul_neg_of_pos_of_neg (by positivity) h
  simp [dopplerWidthFl, fdiv, Bind.bind, Except.bind, ha, hu.ne', hx]

theorem dopplerWidthFl_nonneg (k : PhysConst) {amu T : ℝ} (ha : amu ≠ 0) (h : 0 ≤ T / amu) (E : ℝ) :
    dopplerWidthFl k amu T E = .ok (.fin (dopplerWidth k amu T E)) := by
  have hu := k.u_pos
  have hx : ¬ 2 * k.kB * 1e-6 * T / (amu * k.u) < 0 := by
    have e : 2 * k.kB * 1e-6 * T / (amu * k.u) = 2 * k.kB * 1e-6 / k.u * (T / amu) := by field_simp
    rw [e, not_lt]
    have := k.kB_pos
    positivity
  simp [dopplerWidthFl, dopplerWidth, fdiv, Bind.bind, Except.bind, ha, hu.ne', hx]

/-- For masses and temperatures of the same sign, `Shape.value` is construction by `Shape.build` and evaluation. -/
theorem value_eq_build (s : Shape) (k : PhysConst) (init inter : Level) (final : Option Level) (E : ℝ)
    (h : ∀ a T, s.thermal = some (a, T) → a ≠ 0 → 0 ≤ T / a) :
    s.value k init inter final E = (s.build k init inter final).bind fun r => r.call E := by
  have hz : ∀ {a T E}, (a ≠ 0 → 0 ≤ T / a) → dopplerWidthFl k a T E = (getDopplerWidth k a T E).map .fin := by
    intro a T E h
    by_cases ha : a = 0
    · rw [ha, dopplerWidthFl_zero]; simp [getDopplerWidth, Except.map]
    · rw [dopplerWidthFl_nonneg k ha (h ha), getDopplerWidth_ok k ha]; rfl
  cases s with
  | box R => rfl
  | breitWigner => rfl
  | gauss a T =>
    simp only [Shape.value, Shape.build, mkGauss, Bind.bind, hz (h a T rfl)]
    cases mkResonance k init inter final noRecoil with
    | error e => rfl
    | ok r => cases hd : getDopplerWidth k a T r.er <;> simp [Except.bind, Except.map, hd]
  | pseudoVoigt a T =>
    simp only [Shape.value, Shape.build, mkPseudoVoigt, Bind.bind, hz (h a T rfl)]
    cases mkResonance k init inter final noRecoil with
    | error e => rfl
    | ok r =>
      cases inter.width with
      | error e => rfl
      | ok w => cases hd : getDopplerWidth k a T r.er <;> simp [Except.bind, Except.map, hd]
  | voigt a T =>
    simp only [Shape.value, Shape.build, mkVoigt, mkPseudoVoigt, Bind.bind, hz (h a T rfl)]
    cases mkResonance k init inter final noRecoil with
    | error e => rfl
    | ok r =>
      cases inter.width with
      | error e => rfl
      | ok w => cases hd : getDopplerWidth k a T r.er <;> simp [Except.bind, Except.map, hd]

/-- C182, provable part: a vanishing mass raises, and if exactly one of mass and temperature is negative, no energy gives a number.  A Breit-Wigner
resonance of a level whose total width is not positive gives no number, nor does a Gauss resonance at zero temperature. -/
theorem C182_partial (s : Shape) (k : PhysConst) (init inter : Level) (final : Option Level) (E : ℝ) :
    (∀ a T, s.thermal = some (a, T) → a = 0 ∨ T / a < 0 → ∀ v, s.value k init inter final E ≠ .ok (.fin v)) ∧
    (∀ w, inter.width = .ok w → w ≤ 0 → ∀ v, Shape.value .breitWigner k init inter final E ≠ .ok (.fin v)) ∧
    ∀ a v, Shape.value (.gauss a 0) k init inter final E ≠ .ok (.fin v) := by
  refine ⟨fun a T hs h v => ?_, fun w hw hle v hv => ?_, fun a v hv => ?_⟩
  · have key : ∀ er, dopplerWidthFl k a T er = .error .zeroDivision ∨ dopplerWidthFl k a T er = .ok .nan := by
      intro er
      rcases h with rfl | h
      · exact .inl (dopplerWidthFl_zero k T er)
      · exact .inr (dopplerWidthFl_neg k h er)
    cases s with
    | box R => cases hs
    | breitWigner => cases hs
    | gauss a' T' =>
      cases hs
      simp only [Shape.value, Bind.bind]
      cases mkResonance k init inter final noRecoil with
      | error e => simp [Except.bind]
      | ok r => rcases key r.er with h | h <;> simp [Except.bind, h]
    | pseudoVoigt a' T' =>
      cases hs
      simp only [Shape.value, Bind.bind]
      cases mkResonance k init inter final noRecoil with
      | error e => simp [Except.bind]
      | ok r =>
        cases inter.width with
        | error e => simp [Except.bind]
        | ok w => rcases key r.er with h | h <;> simp [Except.bind, h]
    | voigt a' T' =>
      cases hs
      simp only [Shape.value, Bind.bind]
      cases mkResonance k init inter final noRecoil with
      | error e => simp [Except.bind]
      | ok r =>
        cases inter.width with
        | error e => simp [Except.bind]
        | ok w => rcases key r.er with h | h <;> simp [Except.bind, h]
  · simp only [Shape.value, Shape.build, mkBreitWigner, Bind.bind, hw] at hv
    cases hr : mkResonance k init inter final noRecoil with
    | error e => simp [hr, Except.bind] at hv
    | ok r =>
      have : ¬ (0 : ℝ) < 0.5 * w := by linarith
      simp [hr, Except.bind, Reso.call, cauchyDist, scipyDist, locScale, Bind.bind, this, Fl.smul] at hv
  · simp only [Shape.value, Bind.bind] at hv
    cases hr : mkResonance k init inter final noRecoil with
    | error e => simp [hr, Except.bind] at hv
    | ok r =>
      by_cases ha : a = 0
      · rw [ha] at hv
        simp [hr, Except.bind, dopplerWidthFl_zero] at hv
      · rw [hr] at hv
        simp only [Except.bind, dopplerWidthFl_nonneg k ha (show (0 : ℝ) ≤ 0 / a by simp)] at hv
        simp [dopplerWidth, Reso.call, normDist, scipyDist, locScale, Bind.bind, Except.bind, Fl.smul] at hv

theorem gauss_value {k : PhysConst} {init inter : Level} {final : Option Level} {r : Reso} (hr : mkResonance k init inter final noRecoil = .ok r)
    (hE : init.exc < inter.exc) {amu T : ℝ} (h : 0 < T / amu) (E : ℝ) : Shape.value (.gauss amu T) k init inter final E =
      .ok (.fin (r.ics * normPdf r.er (dopplerWidth k amu T r.er / Real.sqrt 2) E)) := by
  have ha : amu ≠ 0 := by rintro rfl; simp at h
  have her := (mkResonance_inv hr).1
  have hpe : 0 < r.er := by rw [her]; unfold noRecoil; linarith
  have hd : 0 < dopplerWidth k amu T r.er / Real.sqrt 2 := by
    have e : 2 * k.kB * 1e-6 * T / (amu * k.u) = 2 * k.kB * 1e-6 / k.u * (T / amu) := by
      have := k.u_pos; field_simp
    have h1 := k.u_pos
    have h2 := k.kB_pos
    unfold dopplerWidth
    rw [e]
    positivity
  simp [Shape.value, hr, dopplerWidthFl_nonneg k ha h.le, Reso.call, normDist, scipyDist, locScale, Bind.bind, Except.bind, Fl.smul, hd]

theorem exMid_norm_pos : 0 < normPdf 2 (dopplerWidth exConst 11 293 2 / Real.sqrt 2) 4 := by
  have := dopplerWidth_pos exConst (amu := 11) (T := 293) (E := 2) (by norm_num) (by norm_num) (by norm_num)
  have := Real.pi_pos
  unfold normPdf
  positivity

/-- C182: which numbers a Gauss resonance takes: a number if and only if mass and temperature have the same sign and neither vanishes; the signs
together do not matter. -/
theorem C182_gauss {k : PhysConst} {init inter : Level} {final : Option Level} {r : Reso} (hr : mkResonance k init inter final noRecoil = .ok r)
    (hE : init.exc < inter.exc) (amu T E : ℝ) :
    ((∃ v, Shape.value (.gauss amu T) k init inter final E = .ok (.fin v)) ↔ 0 < T / amu) ∧
    ∀ s : ℝ → ℝ → Shape, (s = .gauss ∨ s = .pseudoVoigt ∨ s = .voigt) →
      (s (-amu) (-T)).value k init inter final E = (s amu T).value k init inter final E := by
  constructor
  · constructor
    · rintro ⟨v, hv⟩
      by_contra hn
      rcases eq_or_ne amu 0 with ha | ha
      · exact (C182_partial (.gauss amu T) k init inter final E).1 amu T rfl (.inl ha) v hv
      rcases (not_lt.1 hn).eq_or_lt with h0 | h0
      · have hT : T = 0 := by rcases div_eq_zero_iff.1 h0 with h | h; exacts [h, absurd h ha]
        subst hT
        exact (C182_partial (.gauss amu 0) k init inter final E).2.2 amu v hv
      · exact (C182_partial (.gauss amu T) k init inter final E).1 amu T rfl (.inr h0) v hv
    · intro h
      exact ⟨_, gauss_value hr hE h E⟩
  · have hneg : ∀ er, dopplerWidthFl k (-amu) (-T) er = dopplerWidthFl k amu T er := by
      intro er
      simp only [dopplerWidthFl, fdiv, neg_mul, neg_eq_zero]
      rw [mul_neg, neg_div_neg_eq]
    rintro s (rfl | rfl | rfl) <;> simp only [Shape.value, hneg]

/-- C182 is false of the code: a negative mass together with a negative temperature gives the cross section of their absolute values, -/
theorem C182_refuted : ∃ v, 0 < v ∧
    Shape.value (.gauss (-11) (-293)) exConst exGround exMid none 4 = .ok (.fin v) ∧
    Shape.value (.gauss 11 293) exConst exGround exMid none 4 = .ok (.fin v) := by
  obtain ⟨r, hr, he, hI⟩ := exMid_resonance
  have hE : exGround.exc < exMid.exc := by norm_num [exGround, exMid, groundState, state]
  have h := gauss_value hr hE (amu := 11) (T := 293) (by norm_num) 4
  rw [he] at h
  exact ⟨_, mul_pos hI exMid_norm_pos, ((C182_gauss hr hE 11 293 4).2 _ (.inl rfl)).trans h, h⟩

/-- and a level with a negative width gets a negative cross section. -/
theorem C182_refuted_width : ∃ inter v, inter.width = .ok (-1e-5) ∧ v < 0 ∧
    Shape.value (.gauss 11 293) exConst exGround inter none 4 = .ok (.fin v) := by
  obtain ⟨r, hr, he, hI⟩ := exMid_resonance
  have hE : exGround.exc < exMid.exc := by norm_num [exGround, exMid, groundState, state]
  have h := gauss_value (resonance_scale (ε := -1) (by norm_num) hr) hE (amu := 11) (T := 293) (by norm_num) 4
  simp only [he] at h
  refine ⟨exMid.scaleWidths (-1), _, ?_, ?_, h⟩
  · rw [width_scale, exMid_width]
    simp [Except.map]
  · have := mul_pos hI exMid_norm_pos
    linarith

/-- the hypotheses of the partial theorems are met -/
example : (Shape.voigt 11 (-293)).thermal = some (11, -293) ∧ (-293 : ℝ) / 11 < 0 ∧ ∃ r, mkResonance exConst exGround exMid none noRecoil = .ok r ∧
    exGround.exc < exMid.exc ∧ (exMid.scaleWidths (-1)).width = .ok (-1e-5) := by
  obtain ⟨r, hr, -, -⟩ := exMid_resonance
  refine ⟨rfl, by norm_num, r, hr, by norm_num [exGround, exMid, groundState, state], ?_⟩
  rw [width_scale, exMid_width]
  simp [Except.map]

end Ries
