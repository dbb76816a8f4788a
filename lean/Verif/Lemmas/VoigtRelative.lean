import Verif.Props.Conditioning
import Verif.Props.SelfAbsorption
import Verif.Lemmas.RoundedReso
import Verif.Lemmas.VoigtWings
import Mathlib.Analysis.MeanInequalities
import Mathlib.MeasureTheory.Measure.Haar.NormedSpace

/-! # Lemmas for C202: relative errors of Voigt profiles -/

open MeasureTheory

namespace Ries

/-- equal up to a factor between `exp (-δ)` and `exp δ` -/
def LogNear (δ a b : ℝ) : Prop := ∃ ξ, |ξ| ≤ δ ∧ a = b * Real.exp ξ

namespace LogNear

variable {δ ε a b c d : ℝ}

theorem mono (h : LogNear δ a b) (hd : δ ≤ ε) : LogNear ε a b := by
  obtain ⟨ξ, h1, h2⟩ := h
  exact ⟨ξ, h1.trans hd, h2⟩

theorem refl (h : 0 ≤ δ) (a : ℝ) : LogNear δ a a := ⟨0, by rwa [abs_zero], by rw [Real.exp_zero, mul_one]⟩

theorem trans (h : LogNear δ a b) (h' : LogNear ε b c) : LogNear (δ + ε) a c := by
  obtain ⟨ξ, h1, rfl⟩ := h
  obtain ⟨η, h2, rfl⟩ := h'
  exact ⟨η + ξ, (abs_add_le _ _).trans (by linarith), by rw [Real.exp_add]; ring⟩

theorem mul (h : LogNear δ a b) (h' : LogNear ε c d) : LogNear (δ + ε) (a * c) (b * d) := by
  obtain ⟨ξ, h1, rfl⟩ := h
  obtain ⟨η, h2, rfl⟩ := h'
  exact ⟨ξ + η, (abs_add_le _ _).trans (by linarith), by rw [Real.exp_add]; ring⟩

theorem of_log (ha : 0 < a) (hb : 0 < b) (h : |Real.log a - Real.log b| ≤ δ) : LogNear δ a b :=
  ⟨Real.log a - Real.log b, h, by rw [Real.exp_sub, Real.exp_log ha, Real.exp_log hb]; field_simp⟩

theorem log (hb : 0 < b) (h : LogNear δ a b) : 0 < a ∧ |Real.log a - Real.log b| ≤ δ := by
  obtain ⟨ξ, h1, rfl⟩ := h
  refine ⟨by positivity, ?_⟩
  rw [Real.log_mul hb.ne' (Real.exp_pos _).ne', Real.log_exp]
  simpa using h1

theorem abs_le (hd : δ ≤ 1 / 100) (h : LogNear δ a b) : |a - b| ≤ 1.01 * δ * |b| := by
  obtain ⟨ξ, h1, rfl⟩ := h
  have h0 : 0 ≤ δ := (abs_nonneg _).trans h1
  rw [show b * Real.exp ξ - b = (Real.exp ξ - 1) * b by ring, abs_mul]
  refine mul_le_mul_of_nonneg_right ?_ (abs_nonneg _)
  have h2 := Real.abs_exp_sub_one_sub_id_le (x := ξ) (by linarith)
  have h3 : |Real.exp ξ - 1| ≤ |Real.exp ξ - 1 - ξ| + |ξ| := by simpa using abs_add_le (Real.exp ξ - 1 - ξ) ξ
  have h4 : ξ ^ 2 ≤ 1 / 100 * δ := by
    rw [← sq_abs]
    nlinarith [abs_nonneg ξ]
  linarith

theorem of_abs (h0 : 0 ≤ δ) (hd : δ ≤ 1 / 110) (hb : 0 < b) (h : |a - b| ≤ δ * b) : LogNear (1.01 * δ) a b := by
  have h1 := _root_.abs_le.1 h
  have ha : 0 < a := by nlinarith
  refine of_log ha hb ?_
  rw [← Real.log_div ha.ne' hb.ne', _root_.abs_le]
  have e1 : 1 - δ ≤ a / b := by rw [le_div_iff₀ hb]; linarith
  have e2 : a / b ≤ 1 + δ := by rw [div_le_iff₀ hb]; linarith
  have hp : 0 < a / b := by positivity
  constructor
  · have := Real.one_sub_inv_le_log_of_pos hp
    have h2 : (a / b)⁻¹ ≤ 1 + 1.01 * δ := by
      rw [inv_le_comm₀ hp (by linarith)]
      refine le_trans ?_ e1
      rw [inv_le_iff_one_le_mul₀ (by linarith)]
      nlinarith
    linarith
  · have := Real.log_le_sub_one_of_pos hp
    linarith

theorem of_rel {u : ℝ} {n : ℕ} (hu : 0 ≤ u) (hu1 : u ≤ 1 / 110) (h : KN.Rel u n a b) : LogNear (1.01 * (n * u)) a b := by
  obtain ⟨θ, h1, h2, rfl⟩ := h
  have p : 0 < 1 - u := by linarith
  have pn : 0 < (1 - u) ^ n := pow_pos p n
  have hθ : 0 < θ := pn.trans_le h1
  refine ⟨Real.log θ, ?_, by rw [Real.exp_log hθ]⟩
  have hl : -(1.01 * u) ≤ Real.log (1 - u) := by
    have := Real.one_sub_inv_le_log_of_pos p
    have h2 : (1 - u)⁻¹ ≤ 1 + 1.01 * u := by
      rw [inv_le_iff_one_le_mul₀ p]
      nlinarith
    linarith
  have hn : (0 : ℝ) ≤ n := Nat.cast_nonneg n
  have g1 := Real.log_le_log pn h1
  have g2 := Real.log_le_log hθ h2
  rw [Real.log_inv] at g2
  rw [Real.log_pow] at g1 g2
  have g3 := mul_le_mul_of_nonneg_left hl hn
  rw [_root_.abs_le]
  constructor <;> linarith

end LogNear

/-- if the normal component gets wider, a Voigt profile grows at most by a small power of the ratio of the maximum of the Lorentz curve to the
value -/
theorem coldVoigt_tempered (er E : ℝ) {g s s' : ℝ} (hg : 0 < g) (hs : 0 < s) (hss : s ≤ s') (hp : 2 * (1 - (s / s') ^ 2) ≤ 1) :
    coldVoigt er g E s' ≤ (Real.sqrt 2 / (Real.pi * g * coldVoigt er g E s)) ^ (2 * (1 - (s / s') ^ 2)) * coldVoigt er g E s := by
  have hs' := hs.trans_le hss
  have hpi := Real.pi_pos
  have hV := coldVoigt_pos er E s hg
  set V := coldVoigt er g E s with hVd
  set q := s / s' with hq
  have hq0 : 0 < q := by positivity
  have hq1 : q ≤ 1 := (div_le_one hs').2 hss
  set p := 2 * (1 - q ^ 2) with hpd
  have hp0 : 0 ≤ p := by
    have : q ^ 2 ≤ 1 := pow_le_one₀ hq0.le hq1
    rw [hpd]; linarith
  set M := Real.sqrt 2 / (Real.pi * g * V) with hM
  have hM0 : 0 < M := by positivity
  have hMV : M * V = Real.sqrt 2 * (1 / (Real.pi * g)) := by rw [hM]; field_simp
  -- the three integrands
  have iH := coldVoigt_integrable er E s hg
  have e2 : Real.sqrt 2 ^ 2 = 2 := Real.sq_sqrt (by norm_num)
  have eG : ∀ t, normPdf 0 1 t * Real.exp (t ^ 2 / 4) = Real.sqrt 2 * normPdf 0 (Real.sqrt 2) t := by
    intro t
    unfold normPdf
    rw [sub_zero, div_one, one_mul, div_mul_eq_mul_div, ← Real.exp_add, div_pow, e2]
    rw [show -t ^ 2 / 2 + t ^ 2 / 4 = -(t ^ 2 / 2) / 2 by ring]
    field_simp
  have hL : ∀ x, cauchyPdf er g x ≤ 1 / (Real.pi * g) := by
    intro x
    have := (cauchy_peaked er hg).le_peak x
    refine this.trans (le_of_eq ?_)
    unfold cauchyPdf
    simp
  have hLc : Continuous (cauchyPdf er g) := by
    unfold cauchyPdf
    refine continuous_const.div (by fun_prop) fun x => by positivity
  have iG : Integrable fun t => normPdf 0 1 t * Real.exp (t ^ 2 / 4) * cauchyPdf er g (E - s * t) := by
    simp only [eG]
    refine ((norm_good 0 (show 0 < Real.sqrt 2 by positivity)).integrable.const_mul (Real.sqrt 2)).mul_bdd (c := 1 / (Real.pi * g)) ?_ ?_
    · exact (hLc.comp (by fun_prop : Continuous fun t => E - s * t)).aestronglyMeasurable
    · refine Filter.Eventually.of_forall fun t => ?_
      rw [Real.norm_of_nonneg (cauchyPdf_pos hg _ _).le]
      exact hL _
  have bG : ∫ t, normPdf 0 1 t * Real.exp (t ^ 2 / 4) * cauchyPdf er g (E - s * t) ≤ Real.sqrt 2 * (1 / (Real.pi * g)) := by
    have hn := norm_good 0 (show 0 < Real.sqrt 2 by positivity)
    calc _ ≤ ∫ t, Real.sqrt 2 * normPdf 0 (Real.sqrt 2) t * (1 / (Real.pi * g)) := by
          refine integral_mono iG ((hn.integrable.const_mul _).mul_const _) fun t => ?_
          simp only [eG]
          exact mul_le_mul_of_nonneg_left (hL _) (mul_nonneg (Real.sqrt_nonneg _) (normPdf_pos (by positivity) _ _).le)
      _ = _ := by rw [integral_mul_const, integral_const_mul, hn.integral, mul_one]
  have eF : ∀ t, normPdf 0 1 (q * t) = normPdf 0 1 t * Real.exp (p * (t ^ 2 / 4)) := by
    intro t
    unfold normPdf
    rw [sub_zero, sub_zero, div_one, div_one, div_mul_eq_mul_div (Real.exp _), ← Real.exp_add]
    congr 2
    rw [hpd]; ring
  have hsub : coldVoigt er g E s' = q * ∫ t, normPdf 0 1 t * Real.exp (p * (t ^ 2 / 4)) * cauchyPdf er g (E - s * t) := by
    have h := Measure.integral_comp_mul_left (fun t => normPdf 0 1 t * cauchyPdf er g (E - s' * t)) q
    rw [abs_of_pos (inv_pos.2 hq0), smul_eq_mul] at h
    have e : ∀ t, E - s' * (q * t) = E - s * t := fun t => by rw [hq]; field_simp
    simp only [eF, e] at h
    rw [h]
    unfold coldVoigt
    field_simp
  have iF : Integrable fun t => normPdf 0 1 t * Real.exp (p * (t ^ 2 / 4)) * cauchyPdf er g (E - s * t) := by
    have h := (coldVoigt_integrable er E s' hg).comp_mul_left' hq0.ne'
    have e : ∀ t, E - s' * (q * t) = E - s * t := fun t => by rw [hq]; field_simp
    simpa only [eF, e] using h
  have hpt : ∀ t, M ^ (1 - p) * (normPdf 0 1 t * Real.exp (p * (t ^ 2 / 4)) * cauchyPdf er g (E - s * t)) ≤
      p * (normPdf 0 1 t * Real.exp (t ^ 2 / 4) * cauchyPdf er g (E - s * t)) +
        (1 - p) * M * (normPdf 0 1 t * cauchyPdf er g (E - s * t)) := by
    intro t
    have h := Real.geom_mean_le_arith_mean2_weighted hp0 (by linarith : 0 ≤ 1 - p) (Real.exp_pos (t ^ 2 / 4)).le hM0.le (by ring)
    rw [← Real.exp_mul, mul_comm (t ^ 2 / 4) p] at h
    have h2 := mul_le_mul_of_nonneg_left h (mul_pos (normPdf_pos one_pos 0 t) (cauchyPdf_pos hg er (E - s * t))).le
    linarith
  have hint : M ^ (1 - p) * (∫ t, normPdf 0 1 t * Real.exp (p * (t ^ 2 / 4)) * cauchyPdf er g (E - s * t)) ≤ M * V := by
    have h := integral_mono (iF.const_mul _) ((iG.const_mul p).add (iH.const_mul ((1 - p) * M))) hpt
    simp only [Pi.add_apply] at h
    rw [integral_const_mul, integral_add (iG.const_mul p) (iH.const_mul _), integral_const_mul, integral_const_mul] at h
    have h3 := mul_le_mul_of_nonneg_left bG hp0
    rw [← hMV] at h3
    have e : ∫ t, normPdf 0 1 t * cauchyPdf er g (E - s * t) = V := rfl
    rw [e] at h
    linarith
  set I := ∫ t, normPdf 0 1 t * Real.exp (p * (t ^ 2 / 4)) * cauchyPdf er g (E - s * t) with hI
  have hI0 : 0 ≤ I := integral_nonneg fun t => by
    have := normPdf_pos one_pos 0 t
    have := cauchyPdf_pos hg er (E - s * t)
    positivity
  have hMp : M ^ p * M ^ (1 - p) = M := by rw [← Real.rpow_add hM0]; simp
  have hIle : I ≤ M ^ p * V := by
    have h1 : 0 < M ^ (1 - p) := Real.rpow_pos_of_pos hM0 _
    refine le_of_mul_le_mul_left ?_ h1
    calc M ^ (1 - p) * I ≤ M * V := hint
      _ = M ^ (1 - p) * (M ^ p * V) := by rw [← mul_assoc, mul_comm (M ^ (1 - p)), hMp]
  rw [hsub]
  exact (mul_le_of_le_one_left hI0 hq1).trans hIle

theorem coldVoigt_top (er E s : ℝ) {g : ℝ} (hg : 0 < g) (hs : 0 ≤ s) :
    0 ≤ Real.log (Real.sqrt 2 / (Real.pi * g * coldVoigt er g E s)) := by
  have h := coldVoigt_le er hg hs E
  have hpi := Real.pi_pos
  rw [coldVoigt_zero] at h
  have e : cauchyPdf er g er = 1 / (Real.pi * g) := by unfold cauchyPdf; simp
  rw [e, le_div_iff₀ (by positivity)] at h
  refine Real.log_nonneg ((one_le_div (by have := h.1; positivity)).2 ?_)
  have h2 : (1 : ℝ) ≤ Real.sqrt 2 := Real.one_le_sqrt.2 (by norm_num)
  linarith [h.2]

/-- A small relative change of the standard deviation. -/
theorem coldVoigt_near_sigma (er E : ℝ) {g s s' δ : ℝ} (hg : 0 < g) (hs : 0 < s) (hδ : δ ≤ 1 / 8) (h : LogNear δ s' s) :
    LogNear (δ * (1 + 8 * Real.log (Real.sqrt 2 / (Real.pi * g * coldVoigt er g E s)))) (coldVoigt er g E s') (coldVoigt er g E s) := by
  have hpi := Real.pi_pos
  obtain ⟨hs', hl⟩ := h.log hs
  have hδ0 : 0 ≤ δ := (abs_nonneg _).trans hl
  have hV := coldVoigt_pos er E s hg
  have hV' := coldVoigt_pos er E s' hg
  have hL := coldVoigt_top er E s hg hs.le
  set L := Real.log (Real.sqrt 2 / (Real.pi * g * coldVoigt er g E s)) with hLd
  have h1 := _root_.abs_le.1 hl
  have key : ∀ {a b : ℝ}, 0 < a → 0 < b → Real.log b - Real.log a ≤ δ → 2 * (1 - (a / b) ^ 2) ≤ 4 * δ := by
    intro a b ha hb hab
    have e : (a / b) ^ 2 = Real.exp (2 * (Real.log a - Real.log b)) := by
      rw [← Real.log_div ha.ne' hb.ne', show (2 : ℝ) = ((2 : ℕ) : ℝ) by norm_num, ← Real.log_pow, Real.exp_log (by positivity)]
    have := Real.add_one_le_exp (2 * (Real.log a - Real.log b))
    rw [e]; linarith
  have hp0 : ∀ {a b : ℝ}, 0 < a → a ≤ b → 0 ≤ 2 * (1 - (a / b) ^ 2) := by
    intro a b ha hab
    have : (a / b) ^ 2 ≤ 1 := pow_le_one₀ (div_nonneg ha.le (ha.le.trans hab)) ((div_le_one (ha.trans_le hab)).2 hab)
    linarith
  refine LogNear.of_log hV' hV (_root_.abs_le.2 ?_)
  have hδL : 0 ≤ δ * L := mul_nonneg hδ0 hL
  rcases le_or_gt s s' with hss | hss
  · have hp := key hs hs' h1.2
    have hq := hp0 hs hss
    have ht := Real.log_le_log hV' (coldVoigt_tempered er E hg hs hss (by linarith))
    have hM : 0 < Real.sqrt 2 / (Real.pi * g * coldVoigt er g E s) := by positivity
    rw [Real.log_mul (Real.rpow_pos_of_pos hM _).ne' hV.ne', Real.log_rpow hM, ← hLd] at ht
    have hw := Real.log_le_log (by positivity) (coldVoigt_wider er E hg hs hss)
    rw [Real.log_mul (by positivity) hV.ne', Real.log_div hs.ne' hs'.ne'] at hw
    have h3 := mul_le_mul_of_nonneg_right hp hL
    constructor <;> linarith
  · have hp := key hs' hs (by linarith [h1.1])
    have hq := hp0 hs' hss.le
    have ht := Real.log_le_log hV (coldVoigt_tempered er E hg hs' hss.le (by linarith))
    have hM : 0 < Real.sqrt 2 / (Real.pi * g * coldVoigt er g E s') := by positivity
    rw [Real.log_mul (Real.rpow_pos_of_pos hM _).ne' hV'.ne', Real.log_rpow hM] at ht
    have hLL : Real.log (Real.sqrt 2 / (Real.pi * g * coldVoigt er g E s')) =
        L + (Real.log (coldVoigt er g E s) - Real.log (coldVoigt er g E s')) := by
      rw [hLd, Real.log_div (by positivity) (by positivity), Real.log_div (by positivity) (by positivity),
        Real.log_mul (by positivity) hV.ne', Real.log_mul (by positivity) hV'.ne']
      ring
    rw [hLL] at ht
    have hw := Real.log_le_log (by positivity) (coldVoigt_wider er E hg hs' hss.le)
    rw [Real.log_mul (by positivity) hV'.ne', Real.log_div hs'.ne' hs.ne'] at hw
    set p := 2 * (1 - (s' / s) ^ 2)
    set D := Real.log (coldVoigt er g E s) - Real.log (coldVoigt er g E s') with hD
    have h3 := mul_le_mul_of_nonneg_right hp hL
    constructor
    · rcases le_or_gt D 0 with hD0 | hD0
      · linarith
      · have h4 : p * D ≤ 1 / 2 * D := mul_le_mul_of_nonneg_right (by linarith) hD0.le
        have h5 : p * (L + D) = p * L + p * D := by ring
        linarith
    · linarith

/-- A small relative change of the Cauchy scale. -/
theorem coldVoigt_near_gamma (er E : ℝ) {g g' s δ : ℝ} (hg : 0 < g) (hs : 0 ≤ s) (h : LogNear δ g' g) :
    LogNear δ (coldVoigt er g' E s) (coldVoigt er g E s) := by
  obtain ⟨hg', hl⟩ := h.log hg
  have hV := coldVoigt_pos er E s hg
  have hV' := coldVoigt_pos er E s hg'
  have key : ∀ {a b : ℝ}, 0 < a → a ≤ b → |Real.log (coldVoigt er b E s) - Real.log (coldVoigt er a E s)| ≤ Real.log b - Real.log a := by
    intro a b ha hab
    have hb := ha.trans_le hab
    have v := coldVoigt_pos er E s ha
    have v' := coldVoigt_pos er E s hb
    have h1 := Real.log_le_log (by positivity) (coldVoigt_scaled_le er E s ha hab)
    have h2 : a * coldVoigt er a E s ≤ b * coldVoigt er b E s := by
      rcases hab.eq_or_lt with rfl | hab'
      · exact le_rfl
      rcases hs.eq_or_lt with rfl | hs'
      · rw [coldVoigt_zero, coldVoigt_zero]
        unfold cauchyPdf
        have hpi := Real.pi_pos
        rw [mul_one_div, mul_one_div, div_le_div_iff₀ (by positivity) (by positivity)]
        have e : ∀ c : ℝ, 0 < c → Real.pi * c * (1 + ((E - er) / c) ^ 2) = Real.pi * (c + (E - er) ^ 2 / c) := by
          intro c hc; field_simp
        rw [e b hb, e a ha]
        have e1 : a * (Real.pi * (b + (E - er) ^ 2 / b)) = Real.pi * (a * b + (E - er) ^ 2 * (a / b)) := by ring
        have e2 : b * (Real.pi * (a + (E - er) ^ 2 / a)) = Real.pi * (a * b + (E - er) ^ 2 * (b / a)) := by ring
        rw [e1, e2]
        have h3 : a / b ≤ b / a := ((div_le_one hb).2 hab).trans ((one_le_div ha).2 hab)
        have h4 := mul_le_mul_of_nonneg_left h3 (sq_nonneg (E - er))
        exact mul_le_mul_of_nonneg_left (by linarith) hpi.le
      · exact (coldVoigt_scaled_lt er E hs' ha hab').le
    have h2 := Real.log_le_log (by positivity) h2
    rw [Real.log_mul hb.ne' v'.ne', Real.log_mul (by positivity) (by positivity), Real.log_pow, Real.log_div hb.ne' ha.ne',
      Real.log_mul ha.ne' v.ne'] at h1
    rw [Real.log_mul hb.ne' v'.ne', Real.log_mul ha.ne' v.ne'] at h2
    push_cast at h1
    rw [_root_.abs_le]
    constructor <;> linarith
  refine LogNear.of_log hV' hV ?_
  rcases le_or_gt g g' with hgg | hgg
  · exact (key hg hgg).trans ((le_abs_self _).trans hl)
  · rw [abs_sub_comm]
    refine (key hg' hgg.le).trans ?_
    rw [abs_sub_comm] at hl
    exact (le_abs_self _).trans hl

theorem coldVoigt_shift (er g E s : ℝ) : coldVoigt er g E s = coldVoigt 0 g (E - er) s := by
  unfold coldVoigt
  congr 1
  funext t
  unfold cauchyPdf
  rw [show E - s * t - er = E - er - s * t - 0 by ring]

theorem coldVoigt_rescale {θ : ℝ} (hθ : 0 < θ) (g x s : ℝ) : coldVoigt 0 g (x * θ) s = coldVoigt 0 (g / θ) x (s / θ) / θ := by
  unfold coldVoigt
  rw [← integral_div]
  congr 1
  funext t
  rw [mul_div_assoc]
  congr 1
  unfold cauchyPdf
  rw [div_div]
  congr 1
  rw [show (x - s / θ * t - 0) / (g / θ) = (x * θ - s * t - 0) / g by
    rcases eq_or_ne g 0 with rfl | hg
    · simp
    · field_simp
      ring]
  field_simp

theorem std_first : ∫ t, t * normPdf 0 1 t = 0 := by
  have h := integral_neg_eq_self (fun t => t * normPdf 0 1 t) volume
  have e : ∀ t : ℝ, -t * normPdf 0 1 (-t) = -(t * normPdf 0 1 t) := by
    intro t
    unfold normPdf
    rw [show ((-t - 0) / 1) ^ 2 = ((t - 0) / 1) ^ 2 by ring]
    ring
  simp only [e] at h
  rw [integral_neg] at h
  linarith

/-- A Voigt profile from below: the Lorentz curve at the mean of the squares (Jensen's inequality for `y ↦ 1 / (1 + y)`). -/
theorem coldVoigt_jensen (er E s : ℝ) {g : ℝ} (hg : 0 < g) :
    1 / (Real.pi * g) / (1 + ((E - er) / g) ^ 2 + (s / g) ^ 2) ≤ coldVoigt er g E s := by
  have hpi := Real.pi_pos
  set m := 1 + ((E - er) / g) ^ 2 + (s / g) ^ 2 with hm
  have hm0 : 0 < m := by positivity
  set c := 1 / (Real.pi * g) with hc
  have hc0 : 0 < c := by positivity
  set a := (E - er) / g with ha
  set q := s / g with hq
  -- the tangent
  have hpt : ∀ t, c * (2 / m - (1 + a ^ 2) / m ^ 2) * normPdf 0 1 t + c * (2 * a * q / m ^ 2) * (t * normPdf 0 1 t) +
      -(c * (q ^ 2 / m ^ 2)) * (t ^ 2 * normPdf 0 1 t) ≤ normPdf 0 1 t * cauchyPdf er g (E - s * t) := by
    intro t
    have hn := normPdf_pos one_pos 0 t
    have e : cauchyPdf er g (E - s * t) = c * (1 / (1 + (a - q * t) ^ 2)) := by
      unfold cauchyPdf
      rw [show (E - s * t - er) / g = a - q * t by rw [ha, hq]; ring, hc, div_mul_div_comm, one_mul]
    rw [e]
    have h1 : 0 < 1 + (a - q * t) ^ 2 := by positivity
    have h2 : 2 / m - (1 + (a - q * t) ^ 2) / m ^ 2 ≤ 1 / (1 + (a - q * t) ^ 2) := by
      set z := 1 + (a - q * t) ^ 2
      have : 1 / z - (2 / m - z / m ^ 2) = (m - z) ^ 2 / (z * m ^ 2) := by field_simp; ring
      have h3 : 0 ≤ (m - z) ^ 2 / (z * m ^ 2) := by positivity
      linarith
    have h3 := mul_le_mul_of_nonneg_left h2 (mul_pos hn hc0).le
    refine le_trans (le_of_eq ?_) (h3.trans (le_of_eq (by ring)))
    ring
  have i0 := (norm_good 0 one_pos).integrable
  have i1 : Integrable fun t => t * normPdf 0 1 t := by simpa using std_pow_integrable 1
  have i2 := std_pow_integrable 2
  have h := integral_mono (((i0.const_mul (c * (2 / m - (1 + a ^ 2) / m ^ 2))).add (i1.const_mul (c * (2 * a * q / m ^ 2)))).add
    (i2.const_mul (-(c * (q ^ 2 / m ^ 2))))) (coldVoigt_integrable er E s hg) hpt
  have j0 := i0.const_mul (c * (2 / m - (1 + a ^ 2) / m ^ 2))
  have j1 := i1.const_mul (c * (2 * a * q / m ^ 2))
  have j01 : Integrable fun t => c * (2 / m - (1 + a ^ 2) / m ^ 2) * normPdf 0 1 t + c * (2 * a * q / m ^ 2) * (t * normPdf 0 1 t) := j0.add j1
  simp only [Pi.add_apply] at h
  rw [integral_add j01 (i2.const_mul _), integral_add j0 j1, integral_const_mul,
    integral_const_mul, integral_const_mul, (norm_good 0 one_pos).integral, std_first, std_second] at h
  refine le_trans (le_of_eq ?_) h
  have e : c * (2 / m - (1 + a ^ 2) / m ^ 2) * 1 + c * (2 * a * q / m ^ 2) * 0 + -(c * (q ^ 2 / m ^ 2)) * 1 = c * (2 / m - m / m ^ 2) := by
    rw [show m / m ^ 2 = (1 + a ^ 2) / m ^ 2 + q ^ 2 / m ^ 2 by rw [← add_div]]
    ring
  rw [e]
  field_simp
  ring

end Ries
