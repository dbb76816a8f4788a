import Verif.Props.Voigt

/-! # The Voigt density as a function of temperature and width -/

open MeasureTheory Filter Topology

namespace Ries

/-- density averaged over the standard normal distribution; meaningful for `s = 0` -/
noncomputable def coldVoigt (er g E s : ℝ) : ℝ := ∫ t, normPdf 0 1 t * cauchyPdf er g (E - s * t)

/-- density averaged over the standard Cauchy distribution; meaningful for `g = 0` -/
noncomputable def narrowVoigt (er s E g : ℝ) : ℝ := ∫ t, cauchyPdf 0 1 t * normPdf er s (E - g * t)

theorem coldVoigt_eq (er E : ℝ) {s : ℝ} (g : ℝ) (hs : 0 < s) : voigtDensity er s g E = coldVoigt er g E s := by
  have h := Measure.integral_comp_mul_left (fun t => normPdf 0 s t * cauchyPdf er g (E - t)) s
  rw [abs_of_pos (inv_pos.2 hs), smul_eq_mul] at h
  unfold voigtDensity coldVoigt
  have e : ∀ t, normPdf 0 1 t * cauchyPdf er g (E - s * t) = s * (normPdf 0 s (s * t) * cauchyPdf er g (E - s * t)) := by
    intro t
    have : normPdf 0 1 t = s * normPdf 0 s (s * t) := by
      unfold normPdf
      have : (s * t - 0) / s = (t - 0) / 1 := by rw [sub_zero, sub_zero, div_one, mul_div_cancel_left₀ _ hs.ne']
      rw [this]
      field_simp
    rw [this]; ring
  simp_rw [e]
  rw [integral_const_mul, h]
  field_simp

theorem narrowVoigt_eq (er E : ℝ) {g : ℝ} (s : ℝ) (hg : 0 < g) : voigtDensity er s g E = narrowVoigt er s E g := by
  unfold voigtDensity narrowVoigt
  rw [← integral_sub_left_eq_self _ _ (E - er)]
  have h := Measure.integral_comp_mul_left (fun t => normPdf 0 s (E - er - t) * cauchyPdf er g (E - (E - er - t))) g
  rw [abs_of_pos (inv_pos.2 hg), smul_eq_mul] at h
  have e : ∀ t, cauchyPdf 0 1 t * normPdf er s (E - g * t) =
      g * (normPdf 0 s (E - er - g * t) * cauchyPdf er g (E - (E - er - g * t))) := by
    intro t
    have h1 : cauchyPdf 0 1 t = g * cauchyPdf er g (E - (E - er - g * t)) := by
      unfold cauchyPdf
      have : (E - (E - er - g * t) - er) / g = (t - 0) / 1 := by field_simp; ring
      rw [this]
      have hp := Real.pi_pos.ne'
      have : 1 + ((t - 0) / 1) ^ 2 ≠ 0 := by positivity
      field_simp
    have h2 : normPdf er s (E - g * t) = normPdf 0 s (E - er - g * t) := by
      rw [← normPdf_shift er]; congr 1; ring
    rw [h1, h2]; ring
  simp_rw [e]
  rw [integral_const_mul, h]
  field_simp

theorem coldVoigt_zero (er E g : ℝ) : coldVoigt er g E 0 = cauchyPdf er g E := by
  unfold coldVoigt
  simp only [zero_mul, sub_zero]
  rw [integral_mul_const, (norm_good 0 one_pos).integral, one_mul]

theorem narrowVoigt_zero (er E s : ℝ) : narrowVoigt er s E 0 = normPdf er s E := by
  unfold narrowVoigt
  simp only [zero_mul, sub_zero]
  rw [integral_mul_const, (cauchy_good 0 one_pos).integral, one_mul]

theorem coldVoigt_integrable (er E s : ℝ) {g : ℝ} (hg : 0 < g) : Integrable fun t => normPdf 0 1 t * cauchyPdf er g (E - s * t) := by
  refine (norm_good 0 one_pos).integrable.mul_bdd (c := cauchyPdf er g er) ?_ ?_
  · have : Continuous (cauchyPdf er g) := (cauchy_good er hg).cont
    exact (this.comp (continuous_const.sub (continuous_const.mul continuous_id))).aestronglyMeasurable
  · refine Eventually.of_forall fun t => ?_
    rw [Real.norm_of_nonneg (cauchyPdf_pos hg _ _).le]
    exact (cauchy_peaked er hg).le_peak _

theorem coldVoigt_continuous (er E : ℝ) {g : ℝ} (hg : 0 < g) : Continuous (coldVoigt er g E) := by
  have hc : Continuous (cauchyPdf er g) := (cauchy_good er hg).cont
  refine continuous_of_dominated (bound := fun t => normPdf 0 1 t * cauchyPdf er g er) ?_ ?_ ?_ ?_
  · exact fun s => (coldVoigt_integrable er E s hg).aestronglyMeasurable
  · intro s
    refine Eventually.of_forall fun t => ?_
    have h1 := (normPdf_pos one_pos 0 t).le
    rw [Real.norm_of_nonneg (mul_nonneg h1 (cauchyPdf_pos hg _ _).le)]
    exact mul_le_mul_of_nonneg_left ((cauchy_peaked er hg).le_peak _) h1
  · exact (norm_good 0 one_pos).integrable.mul_const _
  · exact Eventually.of_forall fun t => continuous_const.mul
      (hc.comp (continuous_const.sub (continuous_id.mul continuous_const)))

theorem narrowVoigt_continuous (er E : ℝ) {s : ℝ} (hs : 0 < s) : Continuous (narrowVoigt er s E) := by
  have hc : Continuous (normPdf er s) := normPdf_continuous er s
  refine continuous_of_dominated (bound := fun t => cauchyPdf 0 1 t * normPdf er s er) ?_ ?_ ?_ ?_
  · exact fun g => ((cauchy_good 0 one_pos).cont.mul
      (hc.comp (continuous_const.sub (continuous_const.mul continuous_id)))).aestronglyMeasurable
  · intro g
    refine Eventually.of_forall fun t => ?_
    have h1 := (cauchyPdf_pos one_pos 0 t).le
    rw [Real.norm_of_nonneg (mul_nonneg h1 (normPdf_pos hs _ _).le)]
    exact mul_le_mul_of_nonneg_left ((norm_peaked er hs).le_peak _) h1
  · exact (cauchy_good 0 one_pos).integrable.mul_const _
  · exact Eventually.of_forall fun t => continuous_const.mul
      (hc.comp (continuous_const.sub (continuous_id.mul continuous_const)))

/-- The maximum falls with the Doppler width. -/
theorem coldVoigt_anti (er : ℝ) {g : ℝ} (hg : 0 < g) {s s' : ℝ} (hs : 0 ≤ s) (hss : s < s') : coldVoigt er g er s' < coldVoigt er g er s := by
  rw [← sub_pos]
  unfold coldVoigt
  rw [← integral_sub (coldVoigt_integrable er er s hg) (coldVoigt_integrable er er s' hg)]
  have hpt : ∀ t ≠ 0, 0 < normPdf 0 1 t * cauchyPdf er g (er - s * t) - normPdf 0 1 t * cauchyPdf er g (er - s' * t) := by
    intro t ht
    have h1 := normPdf_pos one_pos 0 t
    have h2 : cauchyPdf er g (er - s' * t) < cauchyPdf er g (er - s * t) := by
      have := (cauchy_peaked er hg).lt_of_abs (d := -(s * t)) (e := -(s' * t)) (by
        rw [abs_neg, abs_neg, abs_mul, abs_mul, abs_of_nonneg hs, abs_of_pos (show 0 < s' by linarith)]
        exact mul_lt_mul_of_pos_right hss (abs_pos.2 ht))
      simpa [sub_eq_add_neg] using this
    nlinarith
  have hnn : ∀ t, 0 ≤ normPdf 0 1 t * cauchyPdf er g (er - s * t) - normPdf 0 1 t * cauchyPdf er g (er - s' * t) := by
    intro t
    rcases eq_or_ne t 0 with rfl | ht
    · simp
    · exact (hpt t ht).le
  rw [integral_pos_iff_support_of_nonneg hnn ((coldVoigt_integrable er er s hg).sub (coldVoigt_integrable er er s' hg))]
  refine lt_of_lt_of_le ?_ (measure_mono (s := {0}ᶜ) fun t ht => (hpt t ht).ne')
  rw [measure_compl (measurableSet_singleton 0) (by simp)]
  simp

end Ries
