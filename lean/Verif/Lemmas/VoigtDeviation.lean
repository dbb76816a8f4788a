import Verif.Lemmas.VoigtLimits
import Verif.Lemmas.NewtonConv
import Mathlib.Analysis.Calculus.Deriv.MeanValue
open MeasureTheory
namespace Ries

/-! # How much Voigt, pseudo-Voigt and normal densities differ -/

theorem gauss_second (u : ℝ) : |(u ^ 2 - 1) * Real.exp (-u ^ 2 / 2)| ≤ 1 := by
  have hv : 0 ≤ u ^ 2 / 2 := by positivity
  have h := Real.quadratic_le_exp_of_nonneg hv
  have hpos := Real.exp_pos (u ^ 2 / 2)
  have e : Real.exp (-u ^ 2 / 2) = (Real.exp (u ^ 2 / 2))⁻¹ := by rw [← Real.exp_neg]; congr 1; ring
  have e2 : u ^ 2 = 2 * (u ^ 2 / 2) := by ring
  rw [e, ← div_eq_mul_inv, abs_div, abs_of_pos hpos, div_le_one hpos, _root_.abs_le]
  constructor
  · nlinarith
  · nlinarith [sq_nonneg (u ^ 2 / 2 - 1)]

theorem gauss_deriv (u : ℝ) : HasDerivAt (fun u : ℝ => Real.exp (-u ^ 2 / 2)) (-u * Real.exp (-u ^ 2 / 2)) u := by
  have h : HasDerivAt (fun u : ℝ => -u ^ 2 / 2) (-u) u := by
    refine (((hasDerivAt_pow 2 u).neg).div_const 2).congr_deriv ?_
    simp
    ring
  exact h.exp.congr_deriv (by ring)

theorem gauss_deriv2 (u : ℝ) : HasDerivAt (fun u : ℝ => -u * Real.exp (-u ^ 2 / 2)) ((u ^ 2 - 1) * Real.exp (-u ^ 2 / 2)) u :=
  ((hasDerivAt_neg u).mul (gauss_deriv u)).congr_deriv (by ring)

theorem gauss_slope (u v : ℝ) : |-u * Real.exp (-u ^ 2 / 2) - -v * Real.exp (-v ^ 2 / 2)| ≤ |u - v| := by
  have := Convex.norm_image_sub_le_of_norm_hasDerivWithin_le (f := fun u : ℝ => -u * Real.exp (-u ^ 2 / 2))
    (f' := fun u => (u ^ 2 - 1) * Real.exp (-u ^ 2 / 2)) (C := 1) (s := Set.univ) (x := v) (y := u)
    (fun x _ => (gauss_deriv2 x).hasDerivWithinAt) (fun x _ => gauss_second x) convex_univ trivial trivial
  simpa using this

/-- second difference -/
theorem gauss_diff (u : ℝ) {h : ℝ} (hh : 0 ≤ h) :
    |Real.exp (-(u + h) ^ 2 / 2) + Real.exp (-(u - h) ^ 2 / 2) - 2 * Real.exp (-u ^ 2 / 2)| ≤ h ^ 2 := by
  set f : ℝ → ℝ := fun h => Real.exp (-(u + h) ^ 2 / 2) + Real.exp (-(u - h) ^ 2 / 2) - 2 * Real.exp (-u ^ 2 / 2) with hf
  set f' : ℝ → ℝ := fun h => -(u + h) * Real.exp (-(u + h) ^ 2 / 2) - -(u - h) * Real.exp (-(u - h) ^ 2 / 2) with hf'
  have hd : ∀ t, HasDerivAt f (f' t) t := by
    intro t
    have h1 : HasDerivAt (fun t => Real.exp (-(u + t) ^ 2 / 2)) (-(u + t) * Real.exp (-(u + t) ^ 2 / 2)) t :=
      ((gauss_deriv (u + t)).comp t ((hasDerivAt_id t).const_add u)).congr_deriv (by simp)
    have h2 : HasDerivAt (fun t => Real.exp (-(u - t) ^ 2 / 2)) (-(-(u - t) * Real.exp (-(u - t) ^ 2 / 2))) t :=
      ((gauss_deriv (u - t)).comp t ((hasDerivAt_id t).const_sub u)).congr_deriv (by simp)
    exact ((h1.add h2).sub_const _).congr_deriv (by simp only [hf']; ring)
  have hb : ∀ t, 0 ≤ t → |f' t| ≤ 2 * t := by
    intro t ht
    refine (gauss_slope (u + t) (u - t)).trans (le_of_eq ?_)
    have : u + t - (u - t) = 2 * t := by ring
    rw [this, abs_of_nonneg (by linarith)]
  have h0 : f 0 = 0 := by simp [hf]; ring
  have key : ∀ σ : ℝ, |σ| = 1 → σ * f h ≤ h ^ 2 := by
    intro σ hσ
    have hm : MonotoneOn (fun t => t ^ 2 - σ * f t) (Set.Ici 0) := by
      refine monotoneOn_of_hasDerivWithinAt_nonneg (convex_Ici 0) (f' := fun t => 2 * t - σ * f' t) ?_ ?_ ?_
      · have : Continuous f := by simp only [hf]; fun_prop
        fun_prop
      · intro t _
        refine (((hasDerivAt_pow 2 t).sub ((hd t).const_mul σ)).congr_deriv ?_).hasDerivWithinAt
        simp
      · intro t ht
        rw [interior_Ici, Set.mem_Ioi] at ht
        have h1 := hb t ht.le
        have h2 : σ * f' t ≤ |f' t| := by
          have := le_abs_self (σ * f' t)
          rwa [abs_mul, hσ, one_mul] at this
        linarith
    have := hm (Set.self_mem_Ici) (show h ∈ Set.Ici (0 : ℝ) from hh) hh
    simp only [h0] at this
    linarith
  rw [_root_.abs_le]
  have k1 := key 1 (by simp)
  have k2 := key (-1) (by simp)
  constructor
  · linarith
  · linarith

theorem norm_diff (l : ℝ) {s : ℝ} (hs : 0 < s) (E h : ℝ) :
    |normPdf l s (E + h) + normPdf l s (E - h) - 2 * normPdf l s E| ≤ 3 * normPdf l s l * (h ^ 2 / (s ^ 2 + h ^ 2)) := by
  wlog hh : 0 ≤ h generalizing h
  · have := this (-h) (by linarith)
    rw [neg_sq, sub_neg_eq_add, ← sub_eq_add_neg] at this
    rwa [add_comm (normPdf l s (E - h))] at this
  set P := normPdf l s l with hP
  have hPpos : 0 < P := normPdf_pos hs l l
  have e : ∀ x, normPdf l s x = P * Real.exp (-((x - l) / s) ^ 2 / 2) := by
    intro x
    simp only [hP, normPdf]
    simp
    ring
  have b : ∀ x, 0 ≤ normPdf l s x ∧ normPdf l s x ≤ P := fun x => ⟨(normPdf_pos hs l x).le, (norm_peaked l hs).le_peak x⟩
  have h2 : |normPdf l s (E + h) + normPdf l s (E - h) - 2 * normPdf l s E| ≤ 2 * P := by
    rw [_root_.abs_le]
    constructor <;> linarith [(b (E + h)).1, (b (E + h)).2, (b (E - h)).1, (b (E - h)).2, (b E).1, (b E).2]
  have h1 : |normPdf l s (E + h) + normPdf l s (E - h) - 2 * normPdf l s E| ≤ P * (h / s) ^ 2 := by
    have := gauss_diff ((E - l) / s) (div_nonneg hh hs.le)
    have e1 : (E + h - l) / s = (E - l) / s + h / s := by ring
    have e2 : (E - h - l) / s = (E - l) / s - h / s := by ring
    rw [e, e, e, e1, e2]
    have e3 : ∀ a b c : ℝ, P * a + P * b - 2 * (P * c) = P * (a + b - 2 * c) := fun a b c => by ring
    rw [e3, abs_mul, abs_of_pos hPpos]
    exact mul_le_mul_of_nonneg_left this hPpos.le
  have hsp : 0 < s ^ 2 := by positivity
  have hq : 0 < s ^ 2 + h ^ 2 := by positivity
  rcases le_total (h ^ 2) (2 * s ^ 2) with hc | hc
  · refine h1.trans ?_
    rw [div_pow, mul_assoc, mul_left_comm]
    refine mul_le_mul_of_nonneg_left ?_ hPpos.le
    rw [← mul_div_assoc, div_le_div_iff₀ hsp hq]
    nlinarith [sq_nonneg h]
  · refine h2.trans ?_
    rw [mul_comm 2 P, mul_assoc, mul_left_comm]
    refine mul_le_mul_of_nonneg_left ?_ hPpos.le
    rw [← mul_div_assoc, le_div_iff₀ hq]
    linarith

theorem narrow_integrable (er E g : ℝ) {s : ℝ} (hs : 0 < s) : Integrable fun t => cauchyPdf 0 1 t * normPdf er s (E - g * t) := by
  refine (cauchy_good 0 one_pos).integrable.mul_bdd (c := normPdf er s er) ?_ ?_
  · exact ((normPdf_continuous er s).comp (by fun_prop : Continuous fun t : ℝ => E - g * t)).aestronglyMeasurable
  · refine Filter.Eventually.of_forall fun t => ?_
    rw [Real.norm_of_nonneg (normPdf_pos hs _ _).le]
    exact (norm_peaked er hs).le_peak _

/-- The Voigt density differs from the normal density by at most a multiple of the ratio of the widths. -/
theorem voigt_near_norm (er : ℝ) {s g : ℝ} (hs : 0 < s) (hg : 0 < g) (E : ℝ) :
    |voigtDensity er s g E - normPdf er s E| ≤ 1.5 * (g / s) * normPdf er s er := by
  rw [narrowVoigt_eq er E s hg]
  have hP : 0 < normPdf er s er := normPdf_pos hs _ _
  have hi := narrow_integrable er E g hs
  have hi' : Integrable fun t => cauchyPdf 0 1 t * normPdf er s (E + g * t) := by
    have := narrow_integrable er E (-g) hs
    refine this.congr (Filter.Eventually.of_forall fun t => ?_)
    simp
  have hflip : ∫ t, cauchyPdf 0 1 t * normPdf er s (E + g * t) = narrowVoigt er s E g := by
    unfold narrowVoigt
    rw [← integral_neg_eq_self]
    congr 1
    funext t
    have h1 : cauchyPdf 0 1 (-t) = cauchyPdf 0 1 t := by simp [cauchyPdf]
    rw [h1]
    congr 2
    ring
  have hc : Integrable fun t => cauchyPdf 0 1 t * normPdf er s E := (cauchy_good 0 one_pos).integrable.mul_const _
  have hcint : ∫ t, cauchyPdf 0 1 t * normPdf er s E = normPdf er s E := by
    rw [integral_mul_const, (cauchy_good 0 one_pos).integral, one_mul]
  have hsum : 2 * (narrowVoigt er s E g - normPdf er s E) =
      ∫ t, cauchyPdf 0 1 t * (normPdf er s (E + g * t) + normPdf er s (E - g * t) - 2 * normPdf er s E) := by
    have e : ∀ t, cauchyPdf 0 1 t * (normPdf er s (E + g * t) + normPdf er s (E - g * t) - 2 * normPdf er s E) =
        cauchyPdf 0 1 t * normPdf er s (E + g * t) + cauchyPdf 0 1 t * normPdf er s (E - g * t) -
          2 * (cauchyPdf 0 1 t * normPdf er s E) := fun t => by ring
    simp_rw [e]
    have e1 := integral_sub (hi'.add hi) (hc.const_mul 2)
    have e2 := integral_add hi' hi
    simp only [Pi.add_apply] at e1
    rw [e1, e2, integral_const_mul, hcint, hflip]
    unfold narrowVoigt
    ring
  set ρ := g / s with hρ
  have hρ0 : 0 < ρ := by positivity
  have hbound : ∀ t, ‖cauchyPdf 0 1 t * (normPdf er s (E + g * t) + normPdf er s (E - g * t) - 2 * normPdf er s E)‖ ≤
      3 * normPdf er s er * ρ * cauchyPdf 0 (1 / ρ) t := by
    intro t
    have hcp := cauchyPdf_pos one_pos 0 t
    rw [Real.norm_eq_abs, abs_mul, abs_of_pos hcp]
    refine (mul_le_mul_of_nonneg_left (norm_diff er hs E (g * t)) hcp.le).trans ?_
    have e1 : (g * t) ^ 2 / (s ^ 2 + (g * t) ^ 2) = (ρ * t) ^ 2 / (1 + (ρ * t) ^ 2) := by
      rw [hρ]; field_simp
    have e2 : cauchyPdf 0 (1 / ρ) t = ρ / (Real.pi * (1 + (ρ * t) ^ 2)) := by
      unfold cauchyPdf
      have : (t - 0) / (1 / ρ) = ρ * t := by rw [sub_zero]; field_simp
      rw [this]
      field_simp
    have e3 : cauchyPdf 0 1 t = 1 / (Real.pi * (1 + t ^ 2)) := by simp [cauchyPdf]
    rw [e1, e2, e3]
    have hp := Real.pi_pos
    have hpos1 : 0 < 1 + t ^ 2 := by positivity
    have hpos2 : 0 < 1 + (ρ * t) ^ 2 := by positivity
    have e4 : 1 / (Real.pi * (1 + t ^ 2)) * (3 * normPdf er s er * ((ρ * t) ^ 2 / (1 + (ρ * t) ^ 2))) =
        3 * normPdf er s er * (ρ ^ 2 / (Real.pi * (1 + (ρ * t) ^ 2))) * (t ^ 2 / (1 + t ^ 2)) := by
      field_simp
    have e5 : 3 * normPdf er s er * ρ * (ρ / (Real.pi * (1 + (ρ * t) ^ 2))) =
        3 * normPdf er s er * (ρ ^ 2 / (Real.pi * (1 + (ρ * t) ^ 2))) := by ring
    rw [e4, e5]
    refine mul_le_of_le_one_right (by positivity) ?_
    rw [div_le_one hpos1]
    linarith
  have hint : Integrable fun t => 3 * normPdf er s er * ρ * cauchyPdf 0 (1 / ρ) t :=
    (cauchy_good 0 (show 0 < 1 / ρ by positivity)).integrable.const_mul _
  have := norm_integral_le_of_norm_le hint (Filter.Eventually.of_forall hbound)
  rw [← hsum, integral_const_mul, (cauchy_good 0 (show 0 < 1 / ρ by positivity)).integral, mul_one, Real.norm_eq_abs, abs_mul,
    abs_of_pos two_pos] at this
  linarith

/-! ## The pseudo-Voigt density -/

/-- normal densities of different scale -/
theorem norm_scale_diff (l : ℝ) {s s' : ℝ} (hs : 0 < s) (hle : s ≤ s') (E : ℝ) :
    |normPdf l s' E - normPdf l s E| ≤ (s' / s - 1) * normPdf l s l := by
  have hs' : 0 < s' := hs.trans_le hle
  set P := normPdf l s l with hP
  have hPpos : 0 < P := normPdf_pos hs l l
  set k := s / s' with hk
  have hk0 : 0 < k := by positivity
  have hk1 : k ≤ 1 := (div_le_one hs').2 hle
  set v := ((E - l) / s) ^ 2 / 2 with hv
  have hv0 : 0 ≤ v := by positivity
  have e1 : normPdf l s E = P * Real.exp (-v) := by
    simp only [hP, normPdf, hv]
    simp
    ring_nf
  have e2 : normPdf l s' E = P * (k * Real.exp (-(k ^ 2 * v))) := by
    have : -((E - l) / s') ^ 2 / 2 = -(k ^ 2 * v) := by
      rw [hk, hv]; field_simp
    simp only [hP, normPdf, this]
    rw [hk]
    simp
    field_simp
  have e3 : s' / s = 1 / k := by rw [hk]; field_simp
  rw [e1, e2, e3, ← mul_sub, abs_mul, abs_of_pos hPpos, mul_comm]
  refine mul_le_mul_of_nonneg_right ?_ hPpos.le
  have hkk : 1 - k ≤ 1 / k - 1 := by
    rw [le_sub_iff_add_le, le_div_iff₀ hk0]; nlinarith [sq_nonneg (1 - k)]
  have hexp : Real.exp (-v) ≤ Real.exp (-(k ^ 2 * v)) := by
    refine Real.exp_le_exp.2 ?_
    have : k ^ 2 ≤ 1 := pow_le_one₀ hk0.le hk1
    nlinarith
  have hle1 : Real.exp (-(k ^ 2 * v)) ≤ 1 := Real.exp_le_one_iff.2 (by have : 0 ≤ k ^ 2 * v := by positivity
                                                                       linarith)
  have hpos1 := Real.exp_pos (-(k ^ 2 * v))
  have hpos2 := Real.exp_pos (-v)
  rw [_root_.abs_le]
  constructor
  · nlinarith
  · -- `exp (-k²v) - exp (-v) ≤ exp (-k²v) (1 - k²) v`
    have h1 : Real.exp (-(k ^ 2 * v)) - Real.exp (-v) ≤ Real.exp (-(k ^ 2 * v)) * ((1 - k ^ 2) * v) := by
      have h := Real.add_one_le_exp (-((1 - k ^ 2) * v))
      have e : Real.exp (-v) = Real.exp (-(k ^ 2 * v)) * Real.exp (-((1 - k ^ 2) * v)) := by
        rw [← Real.exp_add]; congr 1; ring
      rw [e]
      nlinarith
    have h2 : k ^ 2 * v * Real.exp (-(k ^ 2 * v)) ≤ 1 / 2 := by
      have h := Real.add_one_le_exp (k ^ 2 * v - 1)
      have e : Real.exp (k ^ 2 * v - 1) = Real.exp (k ^ 2 * v) * Real.exp (-1) := by rw [← Real.exp_add]; rfl
      have e' : Real.exp (-(k ^ 2 * v)) = (Real.exp (k ^ 2 * v))⁻¹ := Real.exp_neg _
      have hp := Real.exp_pos (k ^ 2 * v)
      have h3 : Real.exp (-1) ≤ 1 / 2 := by
        have := Real.exp_neg_one_lt_d9
        norm_num at this ⊢
        linarith
      rw [e', ← div_eq_mul_inv, div_le_iff₀ hp]
      nlinarith
    have h3 : k * (Real.exp (-(k ^ 2 * v)) * ((1 - k ^ 2) * v)) ≤ 1 / k - 1 := by
      have e : k * (Real.exp (-(k ^ 2 * v)) * ((1 - k ^ 2) * v)) =
          (k ^ 2 * v * Real.exp (-(k ^ 2 * v))) * ((1 / k - 1) * (1 + k)) := by
        field_simp
        ring
      rw [e]
      have h0 : 0 ≤ 1 / k - 1 := by linarith
      have h4 : (1 / k - 1) * (1 + k) ≤ (1 / k - 1) * 2 := mul_le_mul_of_nonneg_left (by linarith) h0
      have h5 : 0 ≤ (1 / k - 1) * (1 + k) := by positivity
      calc _ ≤ 1 / 2 * ((1 / k - 1) * (1 + k)) := mul_le_mul_of_nonneg_right h2 h5
        _ ≤ 1 / k - 1 := by linarith
    have h6 : k * (Real.exp (-(k ^ 2 * v)) - Real.exp (-v)) ≤ 1 / k - 1 := (mul_le_mul_of_nonneg_left h1 hk0.le).trans h3
    nlinarith

theorem pvGamma_le_add {g l : ℝ} (hg : 0 ≤ g) (hl : 0 ≤ l) : pvGamma g l ≤ g + l := by
  rw [pvGamma_eq hg hl]
  have h0 : 0 ≤ pvBase g l := (by positivity : 0 ≤ g ^ 5).trans (pvBase_ge_left hg hl)
  calc _ ≤ ((g + l) ^ 5) ^ (0.2 : ℝ) := Real.rpow_le_rpow h0 (by
        have e : (g + l) ^ 5 - pvBase g l = 2.30731 * g ^ 4 * l + 7.57157 * g ^ 3 * l ^ 2 + 5.52837 * g ^ 2 * l ^ 3
            + 4.92158 * g * l ^ 4 := by unfold pvBase; ring
        have : 0 ≤ 2.30731 * g ^ 4 * l + 7.57157 * g ^ 3 * l ^ 2 + 5.52837 * g ^ 2 * l ^ 3 + 4.92158 * g * l ^ 4 := by positivity
        linarith) (by norm_num)
    _ = g + l := pow_five_root (by positivity)

/-- The pseudo-Voigt density differs from the normal density by at most a multiple of the ratio of the widths. -/
theorem pv_near_norm (er : ℝ) {w d : ℝ} (hw : 0 < w) (hd : 0 < d) (E : ℝ) :
    |(mkPV er w d).pdfR E - normPdf er (d / Real.sqrt 2) E| ≤ 1.8 * (w / d) * normPdf er (d / Real.sqrt 2) er := by
  have hok : PV.Ok w d := ⟨hw.le, hd.le, Or.inl hw⟩
  have hl := sqrt_log_two_pos
  have hlb : 0.83 ≤ Real.sqrt (Real.log 2) := Real.le_sqrt_of_sq_le (by have := Real.log_two_gt_d9; norm_num; linarith)
  set g := 2 * Real.sqrt (Real.log 2) * d with hg
  have hg0 : 0 < g := by positivity
  have hgd : 1.66 * d ≤ g := by rw [hg]; nlinarith
  set G := pvGamma g w with hG
  have hgG : g ≤ G := pvGamma_ge_left hg0.le hw.le
  have hGadd : G ≤ g + w := pvGamma_le_add hg0.le hw.le
  have hG0 : 0 < G := hg0.trans_le hgG
  set s := d / Real.sqrt 2 with hs
  have hs0 : 0 < s := by positivity
  have hns : (mkPV er w d).normScale = s * (G / g) := by
    simp only [PV.normScale, mkPV, ← hg, ← hG, hs]
    rw [hg]
    field_simp
  have hcs : (mkPV er w d).cauchyScale = G / 4 := by
    simp only [PV.cauchyScale, mkPV, ← hg, ← hG]
    ring
  have her : (mkPV er w d).er = er := rfl
  have hη : (mkPV er w d).eta = pvEta w G := rfl
  set η := pvEta w G with hηd
  obtain ⟨hη0, hη1⟩ := pvEta_bounds hw.le (pvGamma_ge_right hg0.le hw.le) hG0
  have hηle : η ≤ 1.36603 * (w / g) := by
    rw [hηd, pvEta_ratio]
    have q0 : 0 < w / G := by positivity
    have q1 : w / G ≤ 1 := (div_le_one hG0).2 (pvGamma_ge_right hg0.le hw.le)
    have q2 : w / G ≤ w / g := div_le_div_of_nonneg_left hw.le hg0 hgG
    generalize w / G = q at *
    have : 0.11116 * q ^ 3 ≤ 0.47719 * q ^ 2 := by
      have : q ^ 3 ≤ q ^ 2 := pow_le_pow_of_le_one q0.le q1 (by norm_num)
      have : 0 ≤ q ^ 2 := by positivity
      linarith
    linarith
  set P := normPdf er s er with hP
  have hPpos : 0 < P := normPdf_pos hs0 _ _
  have hPval : P * d = 1 / Real.sqrt Real.pi := by
    simp only [hP, normPdf, hs]
    have : Real.sqrt (2 * Real.pi) = Real.sqrt 2 * Real.sqrt Real.pi := Real.sqrt_mul (by norm_num) _
    rw [this]
    have h1 : 0 < Real.sqrt Real.pi := Real.sqrt_pos.2 Real.pi_pos
    simp
    field_simp
  have hPd : 0.56 ≤ P * d := by
    rw [hPval, le_div_iff₀ (Real.sqrt_pos.2 Real.pi_pos)]
    have : Real.sqrt Real.pi ≤ 1.78 := Real.sqrt_le_iff.2 ⟨by norm_num, by have := Real.pi_lt_d2; norm_num; linarith⟩
    linarith
  have hle : s ≤ s * (G / g) := le_mul_of_one_le_right hs0.le ((one_le_div hg0).2 hgG)
  have h1 : |normPdf er (s * (G / g)) E - normPdf er s E| ≤ w / g * P := by
    refine (norm_scale_diff er hs0 hle E).trans (mul_le_mul_of_nonneg_right ?_ hPpos.le)
    rw [mul_div_cancel_left₀ _ hs0.ne', sub_le_iff_le_add, div_add_one hg0.ne']
    exact div_le_div_of_nonneg_right (by linarith) hg0.le
  have hcpk : cauchyPdf er (G / 4) E ≤ 1.38 * P := by
    refine ((cauchy_peaked er (show 0 < G / 4 by positivity)).le_peak E).trans ?_
    have e : cauchyPdf er (G / 4) er = 4 / (Real.pi * G) := by
      unfold cauchyPdf
      simp
      field_simp
    rw [e, div_le_iff₀ (by have := Real.pi_pos; positivity)]
    have hpi := Real.pi_gt_d2
    have hGd : 1.66 * d ≤ G := hgd.trans hgG
    have : 0.9296 ≤ P * G := by nlinarith
    nlinarith
  have hcpos := (cauchyPdf_pos (show 0 < G / 4 by positivity) er E).le
  have hn' : normPdf er (s * (G / g)) E ≤ P := by
    have hs'0 : 0 < s * (G / g) := by positivity
    refine ((norm_peaked er hs'0).le_peak E).trans ?_
    simp only [hP, normPdf]
    simp
    have : 0 < Real.sqrt Real.pi * Real.sqrt 2 := by have := Real.pi_pos; positivity
    gcongr
    exact mul_le_of_le_one_left (by positivity) ((div_le_one hG0).2 hgG)
  have hnpos := (normPdf_pos (show 0 < s * (G / g) by positivity) er E).le
  have h2 : |cauchyPdf er (G / 4) E - normPdf er (s * (G / g)) E| ≤ 1.38 * P := by
    rw [_root_.abs_le]
    constructor <;> linarith
  have e : (mkPV er w d).pdfR E - normPdf er s E =
      (normPdf er (s * (G / g)) E - normPdf er s E) + η * (cauchyPdf er (G / 4) E - normPdf er (s * (G / g)) E) := by
    simp only [PV.pdfR, hns, hcs, her, hη]
    ring
  rw [e]
  have hr : w / g ≤ w / d / 1.66 := by
    rw [div_div]
    exact div_le_div_of_nonneg_left hw.le (by positivity) (by linarith)
  have hr0 : 0 < w / g := by positivity
  calc _ ≤ |normPdf er (s * (G / g)) E - normPdf er s E| + |η * (cauchyPdf er (G / 4) E - normPdf er (s * (G / g)) E)| :=
        abs_add_le _ _
    _ ≤ w / g * P + 1.36603 * (w / g) * (1.38 * P) := by
        refine add_le_add h1 ?_
        rw [abs_mul, abs_of_nonneg hη0]
        exact mul_le_mul hηle h2 (abs_nonneg _) (by positivity)
    _ = 2.8851214 * ((w / g) * P) := by ring
    _ ≤ 2.8851214 * ((w / d / 1.66) * P) := by
        exact mul_le_mul_of_nonneg_left (mul_le_mul_of_nonneg_right hr hPpos.le) (by norm_num)
    _ ≤ 1.8 * (w / d) * P := by
        have : 0 < w / d * P := by positivity
        have e : 2.8851214 * ((w / d / 1.66) * P) = 2.8851214 / 1.66 * (w / d * P) := by ring
        rw [e, mul_assoc]
        exact mul_le_mul_of_nonneg_right (by norm_num) this.le

/-- The peak of the pseudo-Voigt density where the Doppler width is at most half of the natural width. -/
theorem pv_peak_broad (er : ℝ) {w d : ℝ} (hw : 0 < w) (hd : 0 ≤ d) (hle : 2 * Real.sqrt (Real.log 2) * d ≤ w / 2) :
    1.4 * (2 / (Real.pi * w)) ≤ (mkPV er w d).pdfR er := by
  have hok : PV.Ok w d := ⟨hw.le, hd, Or.inl hw⟩
  set g := 2 * Real.sqrt (Real.log 2) * d with hg
  have hg0 : 0 ≤ g := hok.g0
  set G := pvGamma g w with hG
  have hwG : w ≤ G := pvGamma_ge_right hg0 hw.le
  have hG0 : 0 < G := hw.trans_le hwG
  have hGle : G ≤ 1.22 * w := by
    rw [hG, pvGamma_eq hg0 hw.le]
    have h0 : 0 ≤ pvBase g w := (by positivity : 0 ≤ g ^ 5).trans (pvBase_ge_left hg0 hw.le)
    calc _ ≤ ((1.22 * w) ^ 5) ^ (0.2 : ℝ) := Real.rpow_le_rpow h0 (by
          have hm : pvBase g w ≤ pvBase (w / 2) w := by unfold pvBase; gcongr
          refine hm.trans ?_
          unfold pvBase
          have : 0 < w ^ 5 := by positivity
          nlinarith) (by norm_num)
      _ = 1.22 * w := pow_five_root (by positivity)
  have hcs : (mkPV er w d).cauchyScale = G / 4 := by
    simp only [PV.cauchyScale, mkPV, ← hg, ← hG]
    ring
  have her : (mkPV er w d).er = er := rfl
  have hη : (mkPV er w d).eta = pvEta w G := rfl
  obtain ⟨hη0, hη1⟩ := pvEta_bounds hw.le hwG hG0
  have hnpos := (normPdf_pos (hok.valid (er := er)).1 er er).le
  have hq : 0.819 ≤ w / G := by rw [le_div_iff₀ hG0]; linarith
  have hq1 : w / G ≤ 1 := (div_le_one hG0).2 hwG
  have hηle : 0.855 ≤ pvEta w G := by
    rw [pvEta_ratio]
    generalize w / G = q at *
    nlinarith [mul_nonneg (sub_nonneg.2 hq) (sub_nonneg.2 hq1), mul_nonneg (sub_nonneg.2 hq) (sub_nonneg.2 hq), sq_nonneg q, mul_nonneg (mul_nonneg (sub_nonneg.2 hq) (sub_nonneg.2 hq)) (sub_nonneg.2 hq)]
  have e : cauchyPdf er (G / 4) er = 2 * (w / G) * (2 / (Real.pi * w)) := by
    unfold cauchyPdf
    simp
    field_simp
    norm_num
  have hb : 0 < 2 / (Real.pi * w) := by have := Real.pi_pos; positivity
  simp only [PV.pdfR, hcs, her, hη, e]
  have h1 : 0 ≤ (1 - pvEta w G) * normPdf er (mkPV er w d).normScale er := mul_nonneg (by linarith) hnpos
  have h2 : 1.4 ≤ pvEta w G * (2 * (w / G)) := by nlinarith
  have h3 := mul_le_mul_of_nonneg_right h2 hb.le
  linarith

end Ries
