import Verif.Model.Constants
import Verif.Spec.Constants
import Verif.Spec.Examples
import Verif.Props.KleinNishina

/-! # C121: one value of `ħc` -/

namespace Ries

theorem kleinNishinaFormula_eq (k : PhysConst) {Z m E : ℝ} (hm : 0 < m) (hE : 0 < E) :
    (KN.mk Z m).total k E = kleinNishinaFormula k.alpha k.hbarc Z m E := by
  unfold KN.total KN.scale kleinNishinaFormula
  have hx : 0 < E / m := div_pos hE hm
  have hd : (1 : ℝ) + 2 * (E / m) ≠ 0 := by positivity
  dsimp only
  generalize Real.log (1 + 2 * (E / m)) = L
  rw [show (k.alpha * k.hbarc / m) ^ 2 = k.alpha ^ 2 * k.hbarc ^ 2 / (m * m) by field_simp, zpow_neg]
  generalize E / m = x at *
  field_simp
  ring

theorem kleinNishinaFormula_scale (α h c Z m E : ℝ) :
    kleinNishinaFormula α (c * h) Z m E = c ^ 2 * kleinNishinaFormula α h Z m E := by
  unfold kleinNishinaFormula
  ring

theorem kleinNishinaFormula_pos {α h Z m E : ℝ} (hα : 0 < α) (hh : 0 < h) (hZ : 0 < Z) (hm : 0 < m) (hE : 0 < E) :
    0 < kleinNishinaFormula α h Z m E := by
  have h1 := (C44_total ⟨1, α, h, 1, 1, one_pos, hα, hh, one_pos, one_pos⟩ ⟨Z, m⟩ hZ hm).1 E hE
  rwa [kleinNishinaFormula_eq _ hm hE] at h1

/-- the Klein-Nishina class, whatever the edition: the formula with the value of `ħc` published in 2014 -/
theorem knTotalAt_eq (e : Edition) {Z m E : ℝ} (hm : 0 < m) (hE : 0 < E) :
    ∃ α, lookup "fine-structure constant" (physicalConstants e) = .ok α ∧ 0 < α ∧
      knTotalAt e Z m E = .ok (.fin (kleinNishinaFormula α 197.3269788 Z m E)) := by
  have key : ∀ me α : ℝ, ∀ h1 : 0 < me, ∀ h2 : 0 < α,
      (do let k ← mkConst me α 197.3269788 1 1; let s ← KN.mk? Z m; s.totalFl k E : Except Err Fl) =
        .ok (.fin (kleinNishinaFormula α 197.3269788 Z m E)) := by
    intro me α h1 h2
    have hx : 0 < E / m := div_pos hE hm
    have e1 := kleinNishinaFormula_eq ⟨me, α, 197.3269788, 1, 1, h1, h2, by norm_num, one_pos, one_pos⟩ (Z := Z) hm hE
    have c : 0 < me ∧ 0 < α ∧ (0 : ℝ) < 197.3269788 ∧ (0 : ℝ) < 1 ∧ (0 : ℝ) < 1 := ⟨h1, h2, by norm_num, one_pos, one_pos⟩
    simp only [mkConst, dif_pos c, KN.mk?, bind, Except.bind, if_neg (mul_pos hm hm).ne']
    simp only [KN.totalFl]
    rw [if_neg hm.ne', if_neg hx.ne', if_neg (by positivity), if_neg (by linarith), e1]
  cases e
  · exact ⟨7.2973525664e-3, by simp [physicalConstants, codata2014, lookup], by norm_num, by
      rw [← key 0.5109989461 7.2973525664e-3 (by norm_num) (by norm_num)]
      simp [knTotalAt, constKN, physicalConstants, codata2014, lookup, bind, Except.bind]⟩
  · exact ⟨7.2973525693e-3, by simp [physicalConstants, codata2018, lookup], by norm_num, by
      rw [← key 0.51099895 7.2973525693e-3 (by norm_num) (by norm_num)]
      simp [knTotalAt, constKN, physicalConstants, codata2018, codata2014, lookup, bind, Except.bind]⟩
  · exact ⟨7.2973525643e-3, by simp [physicalConstants, codata2022, lookup], by norm_num, by
      rw [← key 0.51099895069 7.2973525643e-3 (by norm_num) (by norm_num)]
      simp [knTotalAt, constKN, physicalConstants, codata2022, codata2018, codata2014, lookup, bind, Except.bind]⟩

/-- C121 is false: with every edition of the constants, Compton cross sections are smaller than those for the documented `ħc`, because
the old name of the constant is looked up, which stays at the value of 2014; and with the edition of 2014 no resonance can be
constructed, because the new name is unknown. -/
theorem C121_refuted :
    (∀ (e : Edition) (Z m E : ℝ), 0 < Z → 0 < m → 0 < E → ∃ α v, lookup "fine-structure constant" (physicalConstants e) = .ok α ∧
      knTotalAt e Z m E = .ok (.fin v) ∧ v < kleinNishinaFormula α documentedHbarc Z m E) ∧
    ∀ init inter final recoil, mkResonanceAt .e2014 init inter final recoil = .error .keyError := by
  constructor
  · intro e Z m E hZ hm hE
    obtain ⟨α, h1, hα, h2⟩ := knTotalAt_eq e (Z := Z) hm hE
    refine ⟨α, _, h1, h2, ?_⟩
    have hp := kleinNishinaFormula_pos hα (show (0 : ℝ) < documentedHbarc by norm_num [documentedHbarc]) hZ hm hE
    have hs := kleinNishinaFormula_scale α documentedHbarc (197.3269788 / 197.3269804) Z m E
    rw [show (197.3269788 / 197.3269804 : ℝ) * documentedHbarc = 197.3269788 by norm_num [documentedHbarc]] at hs
    rw [hs]
    exact mul_lt_of_lt_one_left hp (by norm_num)
  · intro init inter final recoil
    simp [mkResonanceAt, physicalConstants, codata2014, lookup, bind, Except.bind]

/-- C121, the part that holds: Compton cross sections differ from those for the documented `ħc` by a relative amount between
1.6e-8 and 1.7e-8, at all energies, and with scipy's constants of 2018 and 2022 resonances use the documented value. -/
theorem C121_partial :
    (∀ (e : Edition) (Z m E : ℝ), 0 < Z → 0 < m → 0 < E → ∃ α v, lookup "fine-structure constant" (physicalConstants e) = .ok α ∧
      knTotalAt e Z m E = .ok (.fin v) ∧ v ≤ (1 - 1.6e-8) * kleinNishinaFormula α documentedHbarc Z m E ∧
      (1 - 1.7e-8) * kleinNishinaFormula α documentedHbarc Z m E ≤ v) ∧
    ∀ e, e ≠ .e2014 → ∀ (k : PhysConst), k.hbarc = documentedHbarc → ∀ init inter final recoil,
      mkResonanceAt e init inter final recoil = mkResonance k init inter final recoil := by
  constructor
  · intro e Z m E hZ hm hE
    obtain ⟨α, h1, hα, h2⟩ := knTotalAt_eq e (Z := Z) hm hE
    have hp := kleinNishinaFormula_pos hα (show (0 : ℝ) < documentedHbarc by norm_num [documentedHbarc]) hZ hm hE
    have hs := kleinNishinaFormula_scale α documentedHbarc (197.3269788 / 197.3269804) Z m E
    rw [show (197.3269788 / 197.3269804 : ℝ) * documentedHbarc = 197.3269788 by norm_num [documentedHbarc]] at hs
    refine ⟨α, _, h1, h2, ?_, ?_⟩
    · rw [hs]
      exact mul_le_mul_of_nonneg_right (by norm_num) hp.le
    · rw [hs]
      exact mul_le_mul_of_nonneg_right (by norm_num) hp.le
  · intro e he k hk init inter final recoil
    have key : (do let k' ← mkConst 1 1 197.3269804 1 1; mkResonance k' init inter final recoil : Except Err Reso) =
        mkResonance k init inter final recoil := by
      have c : (0 : ℝ) < 1 ∧ (0 : ℝ) < 1 ∧ (0 : ℝ) < 197.3269804 ∧ (0 : ℝ) < 1 ∧ (0 : ℝ) < 1 :=
        ⟨one_pos, one_pos, by norm_num, one_pos, one_pos⟩
      simp only [mkConst, dif_pos c, bind, Except.bind, mkResonance, hk, documentedHbarc]
    rw [← key]
    cases e
    · exact absurd rfl he
    · simp [mkResonanceAt, physicalConstants, codata2018, lookup, bind, Except.bind]
    · simp [mkResonanceAt, physicalConstants, codata2022, lookup, bind, Except.bind]

/-- An environment with the constants of 2018; the example resonance can be constructed in it. -/
example : Edition.e2018 ≠ .e2014 ∧ exConst.hbarc = documentedHbarc ∧ ∃ r, mkResonanceAt .e2018 exGround exExcited none noRecoil = .ok r := by
  refine ⟨by decide, rfl, ?_⟩
  obtain ⟨r, h, -⟩ := exResonance
  exact ⟨r, by rw [C121_partial.2 .e2018 (by decide) exConst rfl, h]⟩

end Ries
