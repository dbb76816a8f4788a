import Verif.Lemmas.VoigtDeviation
import Mathlib.MeasureTheory.Integral.Prod
open MeasureTheory Set
namespace Ries

/-! # Probabilities of intervals: Voigt, pseudo-Voigt and normal distributions -/

theorem gauss_steep (u : ℝ) : |u| * Real.exp (-u ^ 2 / 2) ≤ 0.61 := by
  have h1 : |u| ≤ Real.exp (u ^ 2 / 2 - 1 / 2) := by
    have h := Real.add_one_le_exp (u ^ 2 / 2 - 1 / 2)
    nlinarith [sq_nonneg (|u| - 1), sq_abs u]
  have h2 : Real.exp (-(1 / 2)) ≤ 0.61 := by
    have h := Real.exp_neg_one_lt_d9
    have e : Real.exp (-(1 / 2)) ^ 2 = Real.exp (-1) := by rw [← Real.exp_nat_mul]; norm_num
    have : Real.exp (-(1 / 2)) ^ 2 ≤ 0.61 ^ 2 := by rw [e]; norm_num at h ⊢; linarith
    exact le_of_sq_le_sq this (by norm_num)
  have e : Real.exp (u ^ 2 / 2 - 1 / 2) * Real.exp (-u ^ 2 / 2) = Real.exp (-(1 / 2)) := by
    rw [← Real.exp_add]; congr 1; ring
  calc |u| * Real.exp (-u ^ 2 / 2) ≤ Real.exp (u ^ 2 / 2 - 1 / 2) * Real.exp (-u ^ 2 / 2) :=
        mul_le_mul_of_nonneg_right h1 (Real.exp_pos _).le
    _ ≤ 0.61 := by rw [e]; exact h2

theorem norm_peak_le (l : ℝ) {s : ℝ} (hs : 0 < s) : normPdf l s l * s ≤ 0.4 := by
  have h1 : 2.5 ≤ Real.sqrt (2 * Real.pi) := Real.le_sqrt_of_sq_le (by have := Real.pi_gt_d2; norm_num at this ⊢; linarith)
  have e : normPdf l s l * s = 1 / Real.sqrt (2 * Real.pi) := by
    simp only [normPdf, sub_self, zero_div]
    have : Real.sqrt (2 * Real.pi) ≠ 0 := by linarith
    simp
    field_simp
  rw [e, div_le_iff₀ (by linarith)]
  linarith

theorem norm_shape (l s x : ℝ) : normPdf l s x = normPdf l s l * Real.exp (-((x - l) / s) ^ 2 / 2) := by
  simp only [normPdf]
  simp
  ring

theorem norm_pdf_slope (l : ℝ) {s : ℝ} (hs : 0 < s) (x y : ℝ) : |normPdf l s x - normPdf l s y| ≤ 0.25 / s ^ 2 * |x - y| := by
  have hP := normPdf_pos hs l l
  have := Convex.norm_image_sub_le_of_norm_hasDerivWithin_le (f := fun u : ℝ => Real.exp (-u ^ 2 / 2))
    (f' := fun u => -u * Real.exp (-u ^ 2 / 2)) (C := 0.61) (s := Set.univ) (x := (y - l) / s) (y := (x - l) / s)
    (fun x _ => (gauss_deriv x).hasDerivWithinAt) (fun x _ => by
      rw [Real.norm_eq_abs, abs_mul, abs_neg, abs_of_pos (Real.exp_pos _)]; exact gauss_steep x) convex_univ trivial trivial
  rw [Real.norm_eq_abs, Real.norm_eq_abs] at this
  have e : (x - l) / s - (y - l) / s = (x - y) / s := by ring
  rw [e, abs_div, abs_of_pos hs] at this
  rw [norm_shape l s x, norm_shape l s y, ← mul_sub, abs_mul, abs_of_pos hP]
  refine (mul_le_mul_of_nonneg_left this hP.le).trans ?_
  have h4 := norm_peak_le l hs
  have e2 : normPdf l s l * (0.61 * (|x - y| / s)) = (normPdf l s l * s) * (0.61 * (|x - y| / s ^ 2)) := by field_simp
  rw [e2]
  have h5 : 0 ≤ 0.61 * (|x - y| / s ^ 2) := by positivity
  calc normPdf l s l * s * (0.61 * (|x - y| / s ^ 2)) ≤ 0.4 * (0.61 * (|x - y| / s ^ 2)) := mul_le_mul_of_nonneg_right h4 h5
    _ = 0.244 / s ^ 2 * |x - y| := by ring
    _ ≤ 0.25 / s ^ 2 * |x - y| := by gcongr; norm_num

theorem normCdf_mem (l : ℝ) {s : ℝ} (hs : 0 < s) (x : ℝ) : 0 ≤ normCdf l s x ∧ normCdf l s x ≤ 1 :=
  ⟨((norm_good l hs).gt_zero x).le, ((norm_good l hs).lt_one x).le⟩

/-- second differences of the normal distribution function -/
theorem normCdf_diff (l : ℝ) {s : ℝ} (hs : 0 < s) (x h : ℝ) :
    |normCdf l s (x + h) + normCdf l s (x - h) - 2 * normCdf l s x| ≤ 1.25 * (h ^ 2 / (s ^ 2 + h ^ 2)) := by
  wlog hh : 0 ≤ h generalizing h
  · have := this (-h) (by linarith)
    rw [neg_sq, sub_neg_eq_add, ← sub_eq_add_neg] at this
    rwa [add_comm (normCdf l s (x - h))] at this
  have hsp : 0 < s ^ 2 := by positivity
  have hq : 0 < s ^ 2 + h ^ 2 := by positivity
  set F := normCdf l s with hF
  have hg := norm_good l hs
  have h1 : |F (x + h) + F (x - h) - 2 * F x| ≤ 1 := by
    obtain ⟨a0, a1⟩ := normCdf_mem l hs (x + h)
    obtain ⟨b0, b1⟩ := normCdf_mem l hs (x - h)
    have m1 : F (x - h) ≤ F x := hg.strictMono.monotone (by linarith)
    have m2 : F x ≤ F (x + h) := hg.strictMono.monotone (by linarith)
    rw [_root_.abs_le]
    constructor <;> linarith
  have h2 : |F (x + h) + F (x - h) - 2 * F x| ≤ 0.25 / s ^ 2 * h ^ 2 := by
    set f : ℝ → ℝ := fun t => F (x + t) + F (x - t) - 2 * F x with hf
    have hd : ∀ t, HasDerivAt f (normPdf l s (x + t) - normPdf l s (x - t)) t := by
      intro t
      have d1 : HasDerivAt (fun t => F (x + t)) (normPdf l s (x + t)) t :=
        ((hg.deriv (x + t)).comp t ((hasDerivAt_id t).const_add x)).congr_deriv (by simp)
      have d2 : HasDerivAt (fun t => F (x - t)) (-normPdf l s (x - t)) t :=
        ((hg.deriv (x - t)).comp t ((hasDerivAt_id t).const_sub x)).congr_deriv (by simp)
      exact ((d1.add d2).sub_const _).congr_deriv (by ring)
    have key : ∀ σ : ℝ, |σ| = 1 → σ * f h ≤ 0.25 / s ^ 2 * h ^ 2 := by
      intro σ hσ
      have hm : MonotoneOn (fun t => 0.25 / s ^ 2 * t ^ 2 - σ * f t) (Set.Ici 0) := by
        refine monotoneOn_of_hasDerivWithinAt_nonneg (convex_Ici 0)
          (f' := fun t => 0.25 / s ^ 2 * (2 * t) - σ * (normPdf l s (x + t) - normPdf l s (x - t))) ?_ ?_ ?_
        · have hc : Continuous f := continuous_iff_continuousAt.2 fun t => (hd t).continuousAt
          fun_prop
        · intro t _
          refine ((((hasDerivAt_pow 2 t).const_mul (0.25 / s ^ 2)).sub ((hd t).const_mul σ)).congr_deriv ?_).hasDerivWithinAt
          simp
        · intro t ht
          rw [interior_Ici, Set.mem_Ioi] at ht
          have b := norm_pdf_slope l hs (x + t) (x - t)
          have e : x + t - (x - t) = 2 * t := by ring
          rw [e, abs_of_pos (show (0 : ℝ) < 2 * t by linarith)] at b
          have c := le_abs_self (σ * (normPdf l s (x + t) - normPdf l s (x - t)))
          rw [abs_mul, hσ, one_mul] at c
          linarith
      have := hm (Set.self_mem_Ici) (show h ∈ Set.Ici (0 : ℝ) from hh) hh
      have f0 : f 0 = 0 := by simp [hf]; ring
      simp only [f0] at this
      linarith
    rw [_root_.abs_le]
    have k1 := key 1 (by simp)
    have k2 := key (-1) (by simp)
    constructor
    · simp only [hf] at k2; linarith
    · simp only [hf] at k1; linarith
  rcases le_total (h ^ 2) (4 * s ^ 2) with hc | hc
  · refine h2.trans ?_
    rw [div_mul_eq_mul_div, ← mul_div_assoc, div_le_div_iff₀ hsp hq]
    nlinarith [sq_nonneg h]
  · refine h1.trans ?_
    rw [← mul_div_assoc, le_div_iff₀ hq]
    linarith

/-- Averaging over a Cauchy distribution changes a function little if its second differences are small. -/
theorem cauchy_average {f : ℝ → ℝ} (hf : Continuous f) {B : ℝ} (hB : ∀ x, |f x| ≤ B) {s g K : ℝ} (hs : 0 < s) (hg : 0 < g) (hK : 0 ≤ K)
    (x : ℝ) (hd : ∀ h, |f (x + h) + f (x - h) - 2 * f x| ≤ K * (h ^ 2 / (s ^ 2 + h ^ 2))) :
    |(∫ t, cauchyPdf 0 1 t * f (x - g * t)) - f x| ≤ K / 2 * (g / s) := by
  have hint : ∀ a : ℝ, Integrable fun t => cauchyPdf 0 1 t * f (x + a * t) := by
    intro a
    refine (cauchy_good 0 one_pos).integrable.mul_bdd (c := B) ?_ ?_
    · exact (hf.comp (by fun_prop : Continuous fun t : ℝ => x + a * t)).aestronglyMeasurable
    · exact Filter.Eventually.of_forall fun t => hB _
  have hi : Integrable fun t => cauchyPdf 0 1 t * f (x - g * t) := by
    refine (hint (-g)).congr (Filter.Eventually.of_forall fun t => ?_)
    simp only [neg_mul, ← sub_eq_add_neg]
  have hi' := hint g
  have hflip : ∫ t, cauchyPdf 0 1 t * f (x + g * t) = ∫ t, cauchyPdf 0 1 t * f (x - g * t) := by
    rw [← integral_neg_eq_self]
    congr 1
    funext t
    have h1 : cauchyPdf 0 1 (-t) = cauchyPdf 0 1 t := by simp [cauchyPdf]
    rw [h1]
    congr 2
    ring
  have hc : Integrable fun t => cauchyPdf 0 1 t * f x := (cauchy_good 0 one_pos).integrable.mul_const _
  have hcint : ∫ t, cauchyPdf 0 1 t * f x = f x := by rw [integral_mul_const, (cauchy_good 0 one_pos).integral, one_mul]
  have hsum : 2 * ((∫ t, cauchyPdf 0 1 t * f (x - g * t)) - f x) =
      ∫ t, cauchyPdf 0 1 t * (f (x + g * t) + f (x - g * t) - 2 * f x) := by
    have e : ∀ t, cauchyPdf 0 1 t * (f (x + g * t) + f (x - g * t) - 2 * f x) =
        cauchyPdf 0 1 t * f (x + g * t) + cauchyPdf 0 1 t * f (x - g * t) - 2 * (cauchyPdf 0 1 t * f x) := fun t => by ring
    simp_rw [e]
    have e1 := integral_sub (hi'.add hi) (hc.const_mul 2)
    have e2 := integral_add hi' hi
    simp only [Pi.add_apply] at e1
    rw [e1, e2, integral_const_mul, hcint, hflip]
    ring
  set ρ := g / s with hρ
  have hρ0 : 0 < ρ := by positivity
  have hbound : ∀ t, ‖cauchyPdf 0 1 t * (f (x + g * t) + f (x - g * t) - 2 * f x)‖ ≤ K * ρ * cauchyPdf 0 (1 / ρ) t := by
    intro t
    have hcp := cauchyPdf_pos one_pos 0 t
    rw [Real.norm_eq_abs, abs_mul, abs_of_pos hcp]
    refine (mul_le_mul_of_nonneg_left (hd (g * t)) hcp.le).trans ?_
    have e1 : (g * t) ^ 2 / (s ^ 2 + (g * t) ^ 2) = (ρ * t) ^ 2 / (1 + (ρ * t) ^ 2) := by
      rw [hρ]; field_simp
    have e2 : cauchyPdf 0 (1 / ρ) t = ρ / (Real.pi * (1 + (ρ * t) ^ 2)) := by
      unfold cauchyPdf
      have : (t - 0) / (1 / ρ) = ρ * t := by rw [sub_zero]; field_simp
      rw [this]
      field_simp
    have e3 : cauchyPdf 0 1 t = 1 / (Real.pi * (1 + t ^ 2)) := by simp [cauchyPdf]
    rw [e1, e2, e3]
    have hp := Real.pi_pos
    have hpos1 : 0 < 1 + t ^ 2 := by positivity
    have hpos2 : 0 < 1 + (ρ * t) ^ 2 := by positivity
    have e4 : 1 / (Real.pi * (1 + t ^ 2)) * (K * ((ρ * t) ^ 2 / (1 + (ρ * t) ^ 2))) =
        K * (ρ ^ 2 / (Real.pi * (1 + (ρ * t) ^ 2))) * (t ^ 2 / (1 + t ^ 2)) := by
      field_simp
    have e5 : K * ρ * (ρ / (Real.pi * (1 + (ρ * t) ^ 2))) = K * (ρ ^ 2 / (Real.pi * (1 + (ρ * t) ^ 2))) := by ring
    rw [e4, e5]
    refine mul_le_of_le_one_right (by positivity) ?_
    rw [div_le_one hpos1]
    linarith
  have hint : Integrable fun t => K * ρ * cauchyPdf 0 (1 / ρ) t :=
    (cauchy_good 0 (show 0 < 1 / ρ by positivity)).integrable.const_mul _
  have := norm_integral_le_of_norm_le hint (Filter.Eventually.of_forall hbound)
  rw [← hsum, integral_const_mul, (cauchy_good 0 (show 0 < 1 / ρ by positivity)).integral, mul_one, Real.norm_eq_abs, abs_mul,
    abs_of_pos two_pos] at this
  linarith

/-- probability of an interval under a Voigt distribution, as an average over the Cauchy distribution -/
theorem voigt_interval_eq (er : ℝ) {s g : ℝ} (hs : 0 < s) (hg : 0 < g) {a b : ℝ} (hab : a ≤ b) :
    ∫ E in a..b, voigtDensity er s g E =
      (∫ t, cauchyPdf 0 1 t * normCdf er s (b - g * t)) - ∫ t, cauchyPdf 0 1 t * normCdf er s (a - g * t) := by
  have hN := norm_good er hs
  have hcint : ∀ y : ℝ, Integrable fun t => cauchyPdf 0 1 t * normCdf er s (y - g * t) := by
    intro y
    refine (cauchy_good 0 one_pos).integrable.mul_bdd (c := 1) ?_ ?_
    · exact (hN.continuous.comp (by fun_prop : Continuous fun t : ℝ => y - g * t)).aestronglyMeasurable
    · refine Filter.Eventually.of_forall fun t => ?_
      obtain ⟨h0, h1⟩ := normCdf_mem er hs (y - g * t)
      rw [Real.norm_of_nonneg h0]
      exact h1
  have e0 : ∀ E, voigtDensity er s g E = ∫ t, cauchyPdf 0 1 t * normPdf er s (E - g * t) := fun E => narrowVoigt_eq er E s hg
  simp_rw [e0]
  rw [intervalIntegral.integral_of_le hab, integral_integral_swap]
  · rw [← integral_sub (hcint b) (hcint a)]
    congr 1
    funext t
    rw [← intervalIntegral.integral_of_le hab, intervalIntegral.integral_const_mul,
      intervalIntegral.integral_comp_sub_right (fun E => normPdf er s E), hN.intervalIntegral]
    ring
  · have hdom : Integrable (fun p : ℝ × ℝ => normPdf er s er * cauchyPdf 0 1 p.2) ((volume.restrict (Set.Ioc a b)).prod volume) :=
      (integrable_const (normPdf er s er)).mul_prod (cauchy_good 0 one_pos).integrable
    refine hdom.mono' ?_ (Filter.Eventually.of_forall fun p => ?_)
    · have h1 : Continuous fun p : ℝ × ℝ => cauchyPdf 0 1 p.2 := (cauchy_good 0 one_pos).cont.comp continuous_snd
      have h2 : Continuous fun p : ℝ × ℝ => normPdf er s (p.1 - g * p.2) := (normPdf_continuous er s).comp (by fun_prop)
      exact (h1.mul h2).aestronglyMeasurable
    · have hc := cauchyPdf_pos one_pos 0 p.2
      have hn := normPdf_pos hs er (p.1 - g * p.2)
      simp only [Function.uncurry]
      rw [Real.norm_of_nonneg (mul_pos hc hn).le, mul_comm]
      exact mul_le_mul_of_nonneg_right ((norm_peaked er hs).le_peak _) hc.le

/-- The Voigt and the normal distribution assign nearly the same probability to every interval if the width is small. -/
theorem voigt_interval (er : ℝ) {s g : ℝ} (hs : 0 < s) (hg : 0 < g) {a b : ℝ} (hab : a ≤ b) :
    |(∫ E in a..b, voigtDensity er s g E) - (normCdf er s b - normCdf er s a)| ≤ 1.25 * (g / s) := by
  have hN := norm_good er hs
  have key : ∀ y, |(∫ t, cauchyPdf 0 1 t * normCdf er s (y - g * t)) - normCdf er s y| ≤ 1.25 / 2 * (g / s) := by
    intro y
    refine cauchy_average hN.continuous (B := 1) (fun x => ?_) hs hg (by norm_num) y (normCdf_diff er hs y)
    obtain ⟨h0, h1⟩ := normCdf_mem er hs x
    rw [abs_of_nonneg h0]
    exact h1
  rw [voigt_interval_eq er hs hg hab]
  have h1 := _root_.abs_le.1 (key a)
  have h2 := _root_.abs_le.1 (key b)
  rw [_root_.abs_le]
  constructor <;> linarith

/-! ## The pseudo-Voigt distribution -/

theorem normCdf_std_eq (l : ℝ) {s : ℝ} (hs : 0 < s) (x : ℝ) : normCdf l s x = normCdf 0 1 ((x - l) / s) := by
  have h1 := norm_good l hs
  have h2 := norm_good 0 one_pos
  have hd : ∀ x, HasDerivAt (fun x => normCdf l s x - normCdf 0 1 ((x - l) / s)) 0 x := by
    intro x
    have d2 : HasDerivAt (fun x => normCdf 0 1 ((x - l) / s)) (normPdf 0 1 ((x - l) / s) * (1 / s)) x :=
      HasDerivAt.comp (h₂ := normCdf 0 1) (h := fun x => (x - l) / s) x (h2.deriv ((x - l) / s))
        (((hasDerivAt_id x).sub_const l).div_const s)
    refine ((h1.deriv x).sub d2).congr_deriv ?_
    simp only [normPdf]
    have : Real.sqrt (2 * Real.pi) ≠ 0 := (Real.sqrt_pos.2 (by have := Real.pi_pos; positivity)).ne'
    simp
    field_simp
    simp
  have hconst := is_const_of_deriv_eq_zero (fun x => (hd x).differentiableAt) (fun x => (hd x).deriv) x l
  have e1 : normCdf l s l = 1 / 2 := h1.half_of_symm l (norm_peaked l hs).symm
  have e2 : normCdf 0 1 0 = 1 / 2 := h2.half_of_symm 0 (norm_peaked 0 one_pos).symm
  simp only [sub_self, zero_div, e1, e2] at hconst
  linarith

theorem normCdf_scale_diff (l : ℝ) {s s' : ℝ} (hs : 0 < s) (hle : s ≤ s') (x : ℝ) :
    |normCdf l s' x - normCdf l s x| ≤ 0.25 * (s' / s - 1) := by
  have hs' : 0 < s' := hs.trans_le hle
  have hg := norm_good 0 one_pos
  rw [normCdf_std_eq l hs, normCdf_std_eq l hs']
  set u := (x - l) / s' with hu
  set k := s' / s with hk
  have hk1 : 1 ≤ k := (one_le_div hs).2 hle
  have e : (x - l) / s = k * u := by rw [hu, hk]; field_simp
  rw [e]
  -- between `u` and `k u` the density is at most the one at `u`
  have hb : ∀ ξ ∈ Set.uIcc u (k * u), ‖normPdf 0 1 ξ‖ ≤ normPdf 0 1 u := by
    intro ξ hξ
    have hξu : |u| ≤ |ξ| := by
      rcases le_total 0 u with h | h
      · have : u ≤ k * u := le_mul_of_one_le_left h hk1
        rw [Set.uIcc_of_le this] at hξ
        rw [abs_of_nonneg h]
        exact hξ.1.trans (le_abs_self _)
      · have : k * u ≤ u := by nlinarith
        rw [Set.uIcc_of_ge this] at hξ
        rw [abs_of_nonpos h]
        have := neg_le_abs ξ
        linarith [hξ.2]
    rw [Real.norm_of_nonneg (normPdf_pos one_pos _ _).le, norm_shape 0 1 ξ, norm_shape 0 1 u]
    refine mul_le_mul_of_nonneg_left (Real.exp_le_exp.2 ?_) (normPdf_pos one_pos _ _).le
    have := sq_le_sq' (by linarith [abs_nonneg ξ, abs_nonneg u]) hξu
    rw [sq_abs, sq_abs] at this
    simp only [sub_zero, div_one]
    linarith
  have := Convex.norm_image_sub_le_of_norm_hasDerivWithin_le (f := normCdf 0 1) (f' := normPdf 0 1) (C := normPdf 0 1 u)
    (s := Set.uIcc u (k * u)) (x := k * u) (y := u) (fun x _ => (hg.deriv x).hasDerivWithinAt) hb (convex_uIcc _ _)
    Set.right_mem_uIcc Set.left_mem_uIcc
  rw [Real.norm_eq_abs, Real.norm_eq_abs] at this
  refine this.trans ?_
  have e2 : |u - k * u| = (k - 1) * |u| := by
    rw [show u - k * u = -((k - 1) * u) by ring, abs_neg, abs_mul, abs_of_nonneg (by linarith)]
  rw [e2]
  have h1 := gauss_steep u
  have h2 := norm_peak_le 0 one_pos
  rw [mul_one] at h2
  have e3 : normPdf 0 1 u * |u| = normPdf 0 1 0 * (|u| * Real.exp (-u ^ 2 / 2)) := by
    rw [norm_shape 0 1 u]; simp; ring
  have h3 : normPdf 0 1 u * |u| ≤ 0.25 := by
    rw [e3]
    have h0 : 0 ≤ |u| * Real.exp (-u ^ 2 / 2) := by positivity
    have hp := normPdf_pos one_pos 0 0
    nlinarith
  calc normPdf 0 1 u * ((k - 1) * |u|) = (k - 1) * (normPdf 0 1 u * |u|) := by ring
    _ ≤ (k - 1) * 0.25 := mul_le_mul_of_nonneg_left h3 (by linarith)
    _ = 0.25 * (k - 1) := by ring

/-- The pseudo-Voigt and the normal distribution assign nearly the same probability to every interval if the width is small. -/
theorem pv_interval (er : ℝ) {w d : ℝ} (hw : 0 < w) (hd : 0 < d) {a b : ℝ} (hab : a ≤ b) :
    |((mkPV er w d).cdfR b - (mkPV er w d).cdfR a) - (normCdf er (d / Real.sqrt 2) b - normCdf er (d / Real.sqrt 2) a)| ≤
      1.15 * (w / d) := by
  have hl := sqrt_log_two_pos
  have hlb : 0.83 ≤ Real.sqrt (Real.log 2) := Real.le_sqrt_of_sq_le (by have := Real.log_two_gt_d9; norm_num; linarith)
  set g := 2 * Real.sqrt (Real.log 2) * d with hg
  have hg0 : 0 < g := by positivity
  have hgd : 1.66 * d ≤ g := by rw [hg]; nlinarith
  set G := pvGamma g w with hG
  have hgG : g ≤ G := pvGamma_ge_left hg0.le hw.le
  have hGadd : G ≤ g + w := pvGamma_le_add hg0.le hw.le
  have hG0 : 0 < G := hg0.trans_le hgG
  set s := d / Real.sqrt 2 with hs
  have hs0 : 0 < s := by positivity
  have hns : (mkPV er w d).normScale = s * (G / g) := by
    simp only [PV.normScale, mkPV, ← hg, ← hG, hs]
    rw [hg]
    field_simp
  have hcs : (mkPV er w d).cauchyScale = G / 4 := by
    simp only [PV.cauchyScale, mkPV, ← hg, ← hG]
    ring
  have her : (mkPV er w d).er = er := rfl
  have hη : (mkPV er w d).eta = pvEta w G := rfl
  set η := pvEta w G with hηd
  obtain ⟨hη0, hη1⟩ := pvEta_bounds hw.le (pvGamma_ge_right hg0.le hw.le) hG0
  have hηle : η ≤ 1.36603 * (w / g) := by
    rw [hηd, pvEta_ratio]
    have q0 : 0 < w / G := by positivity
    have q1 : w / G ≤ 1 := (div_le_one hG0).2 (pvGamma_ge_right hg0.le hw.le)
    have q2 : w / G ≤ w / g := div_le_div_of_nonneg_left hw.le hg0 hgG
    generalize w / G = q at *
    have : 0.11116 * q ^ 3 ≤ 0.47719 * q ^ 2 := by
      have : q ^ 3 ≤ q ^ 2 := pow_le_pow_of_le_one q0.le q1 (by norm_num)
      have : 0 ≤ q ^ 2 := by positivity
      linarith
    linarith
  have hle : s ≤ s * (G / g) := le_mul_of_one_le_right hs0.le ((one_le_div hg0).2 hgG)
  have hsc : ∀ x, |normCdf er (s * (G / g)) x - normCdf er s x| ≤ 0.25 * (w / g) := by
    intro x
    refine (normCdf_scale_diff er hs0 hle x).trans ?_
    rw [mul_div_cancel_left₀ _ hs0.ne']
    have : G / g - 1 ≤ w / g := by
      rw [sub_le_iff_le_add, div_add_one hg0.ne']
      exact div_le_div_of_nonneg_right (by linarith) hg0.le
    linarith
  have hN' := norm_good er (hs0.trans_le hle)
  have hC := cauchy_good er (show 0 < G / 4 by positivity)
  have ecdf : ∀ x, (mkPV er w d).cdfR x = (1 - η) * normCdf er (s * (G / g)) x + η * cauchyCdf er (G / 4) x := by
    intro x
    simp only [PV.cdfR, hη, hns, hcs, her]
  have m1 : normCdf er (s * (G / g)) a ≤ normCdf er (s * (G / g)) b := hN'.strictMono.monotone hab
  have m2 : cauchyCdf er (G / 4) a ≤ cauchyCdf er (G / 4) b := hC.strictMono.monotone hab
  have r1 := hN'.gt_zero a
  have r2 := hN'.lt_one b
  have r3 := hC.gt_zero a
  have r4 := hC.lt_one b
  have s1 := _root_.abs_le.1 (hsc a)
  have s2 := _root_.abs_le.1 (hsc b)
  rw [ecdf, ecdf]
  set A := normCdf er (s * (G / g)) b - normCdf er (s * (G / g)) a
  set C := cauchyCdf er (G / 4) b - cauchyCdf er (G / 4) a with hCd
  have hA : A = normCdf er (s * (G / g)) b - normCdf er (s * (G / g)) a := rfl
  have hmix : |η * (C - A)| ≤ η := by
    rw [abs_mul, abs_of_nonneg hη0]
    refine mul_le_of_le_one_right hη0 ?_
    rw [_root_.abs_le]
    constructor <;> linarith
  have h5 := _root_.abs_le.1 hmix
  have hwg : w / g ≤ 1 / 1.66 * (w / d) := by
    rw [div_mul_div_comm, one_mul]
    exact div_le_div_of_nonneg_left hw.le (by positivity) hgd
  have e : (1 - η) * normCdf er (s * (G / g)) b + η * cauchyCdf er (G / 4) b -
      ((1 - η) * normCdf er (s * (G / g)) a + η * cauchyCdf er (G / 4) a) = A + η * (C - A) := by
    rw [hA, hCd]; ring
  have hwd : 0 < w / d := by positivity
  rw [e, _root_.abs_le]
  norm_num at hwg ⊢
  constructor <;> linarith

/-- Voigt and pseudo-Voigt distribution -/
theorem voigt_pv_interval (er : ℝ) {w d : ℝ} (hw : 0 < w) (hd : 0 < d) {a b : ℝ} (hab : a ≤ b) :
    |(∫ E in a..b, voigtDensity er (d / Real.sqrt 2) (w / 2) E) - ((mkPV er w d).cdfR b - (mkPV er w d).cdfR a)| ≤ 2.1 * (w / d) := by
  have h1 := _root_.abs_le.1 (voigt_interval er (show 0 < d / Real.sqrt 2 by positivity) (show 0 < w / 2 by positivity) hab)
  have h2 := _root_.abs_le.1 (pv_interval er hw hd hab)
  have e : w / 2 / (d / Real.sqrt 2) = Real.sqrt 2 / 2 * (w / d) := by field_simp
  have hq : Real.sqrt 2 ≤ 1.42 := Real.sqrt_le_iff.2 ⟨by norm_num, by norm_num⟩
  have hwd : 0 < w / d := by positivity
  have h3 : 1.25 * (w / 2 / (d / Real.sqrt 2)) ≤ 0.8875 * (w / d) := by
    rw [e, ← mul_assoc]
    refine mul_le_mul_of_nonneg_right ?_ hwd.le
    linarith
  rw [_root_.abs_le]
  constructor <;> linarith

/-! ## Broad resonances -/

/-- amount of a symmetric and unimodal density in an interval that is moved away from the centre -/
theorem moved_interval_lt {F p : ℝ → ℝ} {c : ℝ} (h : GoodCDF F p) (hp : Peaked c p) {L : ℝ} (hL : 0 < L) {t u : ℝ} (htu : |t| < |u|) :
    F (c + L - u) - F (c - L - u) < F (c + L - t) - F (c - L - t) := by
  have heven : ∀ t, F (c + L - t) - F (c - L - t) = F (c + L - |t|) - F (c - L - |t|) := by
    intro t
    rcases abs_cases t with ⟨e, _⟩ | ⟨e, _⟩
    · rw [e]
    · rw [e]
      have e1 : c + L - -t = 2 * c - (c - L - t) := by ring
      have e2 : c - L - -t = 2 * c - (c + L - t) := by ring
      rw [e1, e2, h.reflect hp, h.reflect hp]
      ring
  have hd : ∀ t, HasDerivAt (fun t => F (c + L - t) - F (c - L - t)) (p (c - L - t) - p (c + L - t)) t := by
    intro t
    have d1 : HasDerivAt (fun t => F (c + L - t)) (-p (c + L - t)) t :=
      ((h.deriv (c + L - t)).comp t ((hasDerivAt_id t).const_sub (c + L))).congr_deriv (by simp)
    have d2 : HasDerivAt (fun t => F (c - L - t)) (-p (c - L - t)) t :=
      ((h.deriv (c - L - t)).comp t ((hasDerivAt_id t).const_sub (c - L))).congr_deriv (by simp)
    exact (d1.sub d2).congr_deriv (by ring)
  have hm : StrictAntiOn (fun t => F (c + L - t) - F (c - L - t)) (Ici 0) := by
    refine strictAntiOn_of_deriv_neg (convex_Ici 0) (fun t _ => (hd t).continuousAt.continuousWithinAt) fun t ht => ?_
    rw [(hd t).deriv]
    rw [interior_Ici, mem_Ioi] at ht
    have := hp.lt_of_abs (d := L - t) (e := -(L + t)) (by
      rw [abs_neg, abs_of_pos (show 0 < L + t by linarith), abs_lt]
      constructor <;> linarith)
    rw [show c + -(L + t) = c - L - t by ring, show c + (L - t) = c + L - t by ring] at this
    linarith
  rw [heven t, heven u]
  exact hm (abs_nonneg t) (abs_nonneg u) htu

theorem moved_interval {F p : ℝ → ℝ} {c : ℝ} (h : GoodCDF F p) (hp : Peaked c p) {L : ℝ} (hL : 0 ≤ L) (t : ℝ) :
    F (c + L - t) - F (c - L - t) ≤ F (c + L) - F (c - L) := by
  rcases hL.eq_or_lt with rfl | hL'
  · simp
  rcases eq_or_ne t 0 with rfl | ht
  · simp
  have := moved_interval_lt h hp hL' (t := 0) (u := t) (by rw [abs_zero]; exact abs_pos.2 ht)
  simp only [sub_zero] at this
  exact this.le

/-- probability of an interval around the centre under a Voigt distribution, as an average over the normal distribution -/
noncomputable def centralVoigt (er g L s : ℝ) : ℝ :=
  ∫ t, normPdf 0 1 t * (cauchyCdf er g (er + L - s * t) - cauchyCdf er g (er - L - s * t))

theorem centralVoigt_integrable (er s : ℝ) {g : ℝ} (hg : 0 < g) {L : ℝ} (hL : 0 ≤ L) :
    Integrable fun t => normPdf 0 1 t * (cauchyCdf er g (er + L - s * t) - cauchyCdf er g (er - L - s * t)) := by
  have hC := cauchy_good er hg
  refine (norm_good 0 one_pos).integrable.mul_bdd (c := 1) ?_ ?_
  · exact ((hC.continuous.comp (by fun_prop : Continuous fun t : ℝ => er + L - s * t)).sub
      (hC.continuous.comp (by fun_prop : Continuous fun t : ℝ => er - L - s * t))).aestronglyMeasurable
  · refine Filter.Eventually.of_forall fun t => ?_
    have m : cauchyCdf er g (er - L - s * t) ≤ cauchyCdf er g (er + L - s * t) := hC.strictMono.monotone (by linarith)
    rw [Real.norm_of_nonneg (by linarith)]
    linarith [hC.gt_zero (er - L - s * t), hC.lt_one (er + L - s * t)]

theorem centralVoigt_zero (er L : ℝ) (g : ℝ) : centralVoigt er g L 0 = cauchyCdf er g (er + L) - cauchyCdf er g (er - L) := by
  unfold centralVoigt
  simp only [zero_mul, sub_zero]
  rw [integral_mul_const, (norm_good 0 one_pos).integral, one_mul]

theorem centralVoigt_eq (er : ℝ) {s g : ℝ} (hs : 0 < s) (hg : 0 < g) {L : ℝ} (hL : 0 ≤ L) :
    ∫ E in (er - L)..(er + L), voigtDensity er s g E = centralVoigt er g L s := by
  have hC := cauchy_good er hg
  have hN := norm_good 0 one_pos
  have hab : er - L ≤ er + L := by linarith
  have e0 : ∀ E, voigtDensity er s g E = ∫ t, normPdf 0 1 t * cauchyPdf er g (E - s * t) := fun E => coldVoigt_eq er E g hs
  simp_rw [e0]
  rw [intervalIntegral.integral_of_le hab, integral_integral_swap]
  · have e : ∀ t, ∫ E in Ioc (er - L) (er + L), normPdf 0 1 t * cauchyPdf er g (E - s * t) =
        normPdf 0 1 t * (cauchyCdf er g (er + L - s * t) - cauchyCdf er g (er - L - s * t)) := by
      intro t
      rw [← intervalIntegral.integral_of_le hab, intervalIntegral.integral_const_mul,
        intervalIntegral.integral_comp_sub_right (fun E => cauchyPdf er g E), hC.intervalIntegral]
    simp_rw [e]
    rfl
  · have hdom : Integrable (fun p : ℝ × ℝ => cauchyPdf er g er * normPdf 0 1 p.2)
        ((volume.restrict (Ioc (er - L) (er + L))).prod volume) :=
      (integrable_const (cauchyPdf er g er)).mul_prod hN.integrable
    refine hdom.mono' ?_ (Filter.Eventually.of_forall fun p => ?_)
    · have h1 : Continuous fun p : ℝ × ℝ => normPdf 0 1 p.2 := hN.cont.comp continuous_snd
      have h2 : Continuous fun p : ℝ × ℝ => cauchyPdf er g (p.1 - s * p.2) := hC.cont.comp (by fun_prop)
      exact (h1.mul h2).aestronglyMeasurable
    · have hc := cauchyPdf_pos hg er (p.1 - s * p.2)
      have hn := normPdf_pos one_pos 0 p.2
      simp only [Function.uncurry]
      rw [Real.norm_of_nonneg (mul_pos hn hc).le, mul_comm]
      exact mul_le_mul_of_nonneg_right ((cauchy_peaked er hg).le_peak _) hn.le

/-- The probability of an interval around the centre falls with the Doppler width. -/
theorem centralVoigt_anti (er : ℝ) {g : ℝ} (hg : 0 < g) {L : ℝ} (hL : 0 < L) {s s' : ℝ} (hs : 0 ≤ s) (hss : s < s') :
    centralVoigt er g L s' < centralVoigt er g L s := by
  have hC := cauchy_good er hg
  have i1 := centralVoigt_integrable er s hg hL.le
  have i2 := centralVoigt_integrable er s' hg hL.le
  rw [← sub_pos]
  unfold centralVoigt
  rw [← integral_sub i1 i2]
  have hpt : ∀ t ≠ 0, 0 < normPdf 0 1 t * (cauchyCdf er g (er + L - s * t) - cauchyCdf er g (er - L - s * t)) -
      normPdf 0 1 t * (cauchyCdf er g (er + L - s' * t) - cauchyCdf er g (er - L - s' * t)) := by
    intro t ht
    have h1 := normPdf_pos one_pos 0 t
    have h2 := moved_interval_lt hC (cauchy_peaked er hg) hL (t := s * t) (u := s' * t) (by
      rw [abs_mul, abs_mul, abs_of_nonneg hs, abs_of_pos (show 0 < s' by linarith)]
      exact mul_lt_mul_of_pos_right hss (abs_pos.2 ht))
    rw [← mul_sub]
    exact mul_pos h1 (by linarith)
  have hnn : ∀ t, 0 ≤ normPdf 0 1 t * (cauchyCdf er g (er + L - s * t) - cauchyCdf er g (er - L - s * t)) -
      normPdf 0 1 t * (cauchyCdf er g (er + L - s' * t) - cauchyCdf er g (er - L - s' * t)) := by
    intro t
    rcases eq_or_ne t 0 with rfl | ht
    · simp
    · exact (hpt t ht).le
  rw [integral_pos_iff_support_of_nonneg hnn (i1.sub i2)]
  refine lt_of_lt_of_le ?_ (measure_mono (s := {0}ᶜ) fun t ht => (hpt t ht).ne')
  rw [measure_compl (measurableSet_singleton 0) (by simp)]
  simp

/-- A Voigt distribution has at most as much probability in an interval around the centre as its Cauchy component. -/
theorem voigt_interval_le_cauchy (er : ℝ) {s g : ℝ} (hs : 0 < s) (hg : 0 < g) {L : ℝ} (hL : 0 ≤ L) :
    ∫ E in (er - L)..(er + L), voigtDensity er s g E ≤ cauchyCdf er g (er + L) - cauchyCdf er g (er - L) := by
  rcases hL.eq_or_lt with rfl | hL'
  · simp
  · rw [centralVoigt_eq er hs hg hL, ← centralVoigt_zero]
    exact (centralVoigt_anti er hg hL' le_rfl hs).le

theorem arctan_beyond_one : Real.pi / 4 + 0.045 ≤ Real.arctan 1.1 := by
  obtain ⟨ξ, h, e⟩ := exists_hasDerivAt_eq_slope Real.arctan (fun x => 1 / (1 + x ^ 2)) (show (1 : ℝ) < 1.1 by norm_num)
    Real.continuous_arctan.continuousOn fun x _ => Real.hasDerivAt_arctan x
  rw [Real.arctan_one] at e
  have h2 : ξ ^ 2 ≤ 1.21 := by nlinarith [h.1, h.2]
  have h3 : 0.45 ≤ 1 / (1 + ξ ^ 2) := by
    rw [le_div_iff₀ (by positivity)]; linarith
  rw [e, le_div_iff₀ (by norm_num)] at h3
  linarith

end Ries
