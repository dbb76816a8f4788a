import Verif.Props.VoigtDeviation
import Mathlib.MeasureTheory.Integral.IntegralEqImproper

/-! # The Voigt density far from the resonance -/

open MeasureTheory Filter Topology

namespace Ries

/-! ## Moments of the standard normal distribution -/

theorem std_pow_integrable (n : ℕ) : Integrable fun t => t ^ n * normPdf 0 1 t := by
  have h := integrable_rpow_mul_exp_neg_mul_sq (b := 1 / 2) (by norm_num) (s := n) (by
    have : (0 : ℝ) ≤ n := Nat.cast_nonneg n
    linarith)
  have := h.mul_const (Real.sqrt (2 * Real.pi))⁻¹
  refine this.congr (Eventually.of_forall fun t => ?_)
  simp only [Real.rpow_natCast, normPdf]
  have : -(((t - 0) / 1) ^ 2) / 2 = -(1 / 2) * t ^ 2 := by ring
  rw [this]
  ring

theorem std_hasDerivAt (t : ℝ) : HasDerivAt (normPdf 0 1) (-t * normPdf 0 1 t) t := by
  have e : normPdf 0 1 = fun t => Real.exp (-(1 / 2) * t ^ 2) * (Real.sqrt (2 * Real.pi))⁻¹ := by
    funext t
    simp only [normPdf]
    have : -(((t - 0) / 1) ^ 2) / 2 = -(1 / 2) * t ^ 2 := by ring
    rw [this]
    ring
  rw [e]
  have h := (((hasDerivAt_pow 2 t).const_mul (-(1 / 2) : ℝ)).exp).mul_const (Real.sqrt (2 * Real.pi))⁻¹
  refine h.congr_deriv ?_
  simp
  ring

theorem std_moment (n : ℕ) : ∫ t, t ^ (n + 2) * normPdf 0 1 t = (n + 1) * ∫ t, t ^ n * normPdf 0 1 t := by
  have h := integral_mul_deriv_eq_deriv_mul_of_integrable (u := fun t : ℝ => t ^ (n + 1)) (u' := fun t => (n + 1) * t ^ n)
    (v := normPdf 0 1) (v' := fun t => -t * normPdf 0 1 t)
    (fun t _ => by simpa using hasDerivAt_pow (n + 1) t) (fun t _ => std_hasDerivAt t)
    (((std_pow_integrable (n + 2)).neg).congr (Eventually.of_forall fun t => by simp [pow_succ]; ring))
    (((std_pow_integrable n).const_mul (n + 1 : ℝ)).congr (Eventually.of_forall fun t => by simp; ring))
    ((std_pow_integrable (n + 1)).congr (Eventually.of_forall fun t => by simp))
  have e1 : ∀ t : ℝ, t ^ (n + 1) * (-t * normPdf 0 1 t) = -(t ^ (n + 2) * normPdf 0 1 t) := fun t => by ring
  have e2 : ∀ t : ℝ, (n + 1) * t ^ n * normPdf 0 1 t = (n + 1) * (t ^ n * normPdf 0 1 t) := fun t => by ring
  simp only [e1, e2] at h
  rw [integral_neg, integral_const_mul] at h
  linarith

theorem std_second : ∫ t, t ^ 2 * normPdf 0 1 t = 1 := by
  have := std_moment 0
  simpa [(norm_good 0 one_pos).integral] using this

theorem std_fourth : ∫ t, t ^ 4 * normPdf 0 1 t = 3 := by
  have := std_moment 2
  rw [std_second] at this
  rw [this]; norm_num

/-! ## Pointwise bounds of the symmetrized Lorentz curve -/

theorem cauchyPdf_frac (er : ℝ) {g : ℝ} (hg : 0 < g) (E : ℝ) : cauchyPdf er g E = g / Real.pi * (1 / ((E - er) ^ 2 + g ^ 2)) := by
  have hpi := Real.pi_pos
  have : 0 < (E - er) ^ 2 + g ^ 2 := by positivity
  unfold cauchyPdf
  field_simp
  ring

theorem lor_lower {g : ℝ} (hg : 0 < g) (x y : ℝ) :
    1 / (x ^ 2 + g ^ 2) * (1 - y ^ 2 / (x ^ 2 + g ^ 2)) ≤ (1 / ((x - y) ^ 2 + g ^ 2) + 1 / ((x + y) ^ 2 + g ^ 2)) / 2 := by
  have h1 : 0 < (x - y) ^ 2 + g ^ 2 := by positivity
  have h2 : 0 < (x + y) ^ 2 + g ^ 2 := by positivity
  have ha : 0 < x ^ 2 + g ^ 2 := by positivity
  have e : (1 / ((x - y) ^ 2 + g ^ 2) + 1 / ((x + y) ^ 2 + g ^ 2)) / 2 =
      (x ^ 2 + g ^ 2 + y ^ 2) / (((x - y) ^ 2 + g ^ 2) * ((x + y) ^ 2 + g ^ 2)) := by field_simp; ring
  rw [e]
  have hD : ((x - y) ^ 2 + g ^ 2) * ((x + y) ^ 2 + g ^ 2) ≤ (x ^ 2 + g ^ 2 + y ^ 2) ^ 2 := by nlinarith [sq_nonneg (x * y)]
  have hD0 := mul_pos h1 h2
  have hay : 0 < x ^ 2 + g ^ 2 + y ^ 2 := by positivity
  calc 1 / (x ^ 2 + g ^ 2) * (1 - y ^ 2 / (x ^ 2 + g ^ 2)) = (x ^ 2 + g ^ 2 - y ^ 2) / (x ^ 2 + g ^ 2) ^ 2 := by field_simp
    _ ≤ 1 / (x ^ 2 + g ^ 2 + y ^ 2) := by
        rw [div_le_div_iff₀ (by positivity) hay]
        nlinarith [sq_nonneg (y ^ 2)]
    _ = (x ^ 2 + g ^ 2 + y ^ 2) / (x ^ 2 + g ^ 2 + y ^ 2) ^ 2 := by field_simp
    _ ≤ _ := div_le_div_of_nonneg_left hay.le hD0 hD

theorem lor_upper {g : ℝ} (hg : 0 < g) (x y k : ℝ) (hk : 3 * x ^ 2 * y ^ 2 ≤ k * (((x - y) ^ 2 + g ^ 2) * ((x + y) ^ 2 + g ^ 2))) :
    (1 / ((x - y) ^ 2 + g ^ 2) + 1 / ((x + y) ^ 2 + g ^ 2)) / 2 ≤ 1 / (x ^ 2 + g ^ 2) * (1 + k) := by
  have h1 : 0 < (x - y) ^ 2 + g ^ 2 := by positivity
  have h2 : 0 < (x + y) ^ 2 + g ^ 2 := by positivity
  have ha : 0 < x ^ 2 + g ^ 2 := by positivity
  have e : (1 / ((x - y) ^ 2 + g ^ 2) + 1 / ((x + y) ^ 2 + g ^ 2)) / 2 =
      (x ^ 2 + g ^ 2 + y ^ 2) / (((x - y) ^ 2 + g ^ 2) * ((x + y) ^ 2 + g ^ 2)) := by field_simp; ring
  rw [e, ← mul_div_right_comm, one_mul, div_le_div_iff₀ (mul_pos h1 h2) ha]
  nlinarith [sq_nonneg (y ^ 2), sq_nonneg (y * g)]

theorem lor_denom (g x y : ℝ) : 2 * g ^ 2 * x ^ 2 ≤ ((x - y) ^ 2 + g ^ 2) * ((x + y) ^ 2 + g ^ 2) := by
  nlinarith [sq_nonneg (x ^ 2 - y ^ 2), sq_nonneg (g * y), sq_nonneg (g ^ 2)]

theorem lor_global {g : ℝ} (hg : 0 < g) (x y : ℝ) :
    (1 / ((x - y) ^ 2 + g ^ 2) + 1 / ((x + y) ^ 2 + g ^ 2)) / 2 ≤ 1 / (x ^ 2 + g ^ 2) * (1 + 3 / 2 * y ^ 2 / g ^ 2) := by
  refine lor_upper hg x y _ ?_
  have h := mul_le_mul_of_nonneg_left (lor_denom g x y) (show 0 ≤ 3 / 2 * y ^ 2 / g ^ 2 by positivity)
  refine le_trans (le_of_eq ?_) h
  field_simp

theorem lor_wing {g : ℝ} (hg : 0 < g) {x : ℝ} (hx : x ≠ 0) (y : ℝ) :
    (1 / ((x - y) ^ 2 + g ^ 2) + 1 / ((x + y) ^ 2 + g ^ 2)) / 2 ≤
      1 / (x ^ 2 + g ^ 2) * (1 + (16 / 3 * y ^ 2 + 6 * y ^ 4 / g ^ 2) / x ^ 2) := by
  refine lor_upper hg x y _ ?_
  have hx2 : 0 < x ^ 2 := by positivity
  have hd := lor_denom g x y
  have hd0 : 0 ≤ ((x - y) ^ 2 + g ^ 2) * ((x + y) ^ 2 + g ^ 2) := by positivity
  rcases le_total (4 * y ^ 2) (x ^ 2) with h | h
  · have h9 : 9 / 16 * x ^ 4 ≤ ((x - y) ^ 2 + g ^ 2) * ((x + y) ^ 2 + g ^ 2) := by
      have e : 3 / 4 * x ^ 2 ≤ x ^ 2 - y ^ 2 := by linarith
      have := mul_self_le_mul_self (by positivity) e
      nlinarith [sq_nonneg (g * y), sq_nonneg (g * x), sq_nonneg (g ^ 2)]
    have h1 := mul_le_mul_of_nonneg_left h9 (show 0 ≤ (16 / 3 * y ^ 2) / x ^ 2 by positivity)
    have h2 : (16 / 3 * y ^ 2) / x ^ 2 * (((x - y) ^ 2 + g ^ 2) * ((x + y) ^ 2 + g ^ 2)) ≤
        (16 / 3 * y ^ 2 + 6 * y ^ 4 / g ^ 2) / x ^ 2 * (((x - y) ^ 2 + g ^ 2) * ((x + y) ^ 2 + g ^ 2)) := by
      refine mul_le_mul_of_nonneg_right (div_le_div_of_nonneg_right ?_ hx2.le) hd0
      have : 0 ≤ 6 * y ^ 4 / g ^ 2 := by positivity
      linarith
    refine le_trans (le_of_eq ?_) (h1.trans h2)
    field_simp
    ring
  · have h1 := mul_le_mul_of_nonneg_left hd (show 0 ≤ (6 * y ^ 4 / g ^ 2) / x ^ 2 by positivity)
    have h2 : (6 * y ^ 4 / g ^ 2) / x ^ 2 * (((x - y) ^ 2 + g ^ 2) * ((x + y) ^ 2 + g ^ 2)) ≤
        (16 / 3 * y ^ 2 + 6 * y ^ 4 / g ^ 2) / x ^ 2 * (((x - y) ^ 2 + g ^ 2) * ((x + y) ^ 2 + g ^ 2)) := by
      refine mul_le_mul_of_nonneg_right (div_le_div_of_nonneg_right ?_ hx2.le) hd0
      have : 0 ≤ 16 / 3 * y ^ 2 := by positivity
      linarith
    refine le_trans ?_ (h1.trans h2)
    have e : 6 * y ^ 4 / g ^ 2 / x ^ 2 * (2 * g ^ 2 * x ^ 2) = 12 * y ^ 4 := by field_simp; ring
    rw [e]
    nlinarith [mul_le_mul_of_nonneg_right h (sq_nonneg y)]

/-! ## The Voigt density -/

/-- average over both directions -/
theorem coldVoigt_symm (er E s : ℝ) {g : ℝ} (hg : 0 < g) :
    coldVoigt er g E s = ∫ t, normPdf 0 1 t * ((cauchyPdf er g (E - s * t) + cauchyPdf er g (E + s * t)) / 2) := by
  have hi := coldVoigt_integrable er E s hg
  have hi' := coldVoigt_integrable er E (-s) hg
  have h1 : ∫ t, normPdf 0 1 t * cauchyPdf er g (E + s * t) = coldVoigt er g E s := by
    rw [coldVoigt, ← integral_neg_eq_self]
    refine integral_congr_ae (Eventually.of_forall fun t => ?_)
    have e := normPdf_symm 0 1 t
    rw [zero_add, zero_sub] at e
    simp only [e]
    congr 2
    ring
  have h2 : ∀ t, normPdf 0 1 t * ((cauchyPdf er g (E - s * t) + cauchyPdf er g (E + s * t)) / 2) =
      normPdf 0 1 t * cauchyPdf er g (E - s * t) / 2 + normPdf 0 1 t * cauchyPdf er g (E + s * t) / 2 := fun t => by ring
  simp_rw [h2]
  have hi'' : Integrable fun t => normPdf 0 1 t * cauchyPdf er g (E + s * t) := by
    refine hi'.congr (Eventually.of_forall fun t => ?_)
    simp only
    congr 2
    ring
  rw [integral_add (hi.div_const 2) (hi''.div_const 2), integral_div, integral_div, h1]
  rw [← coldVoigt]
  ring

theorem coldVoigt_symm_integrable (er E s : ℝ) {g : ℝ} (hg : 0 < g) :
    Integrable fun t => normPdf 0 1 t * ((cauchyPdf er g (E - s * t) + cauchyPdf er g (E + s * t)) / 2) := by
  have hi := coldVoigt_integrable er E s hg
  have hi' := coldVoigt_integrable er E (-s) hg
  refine ((hi.add hi').div_const 2).congr (Eventually.of_forall fun t => ?_)
  simp only [Pi.add_apply]
  have : E - -s * t = E + s * t := by ring
  rw [this]
  ring

theorem sym_frac (er E s t : ℝ) {g : ℝ} (hg : 0 < g) : (cauchyPdf er g (E - s * t) + cauchyPdf er g (E + s * t)) / 2 =
    g / Real.pi * ((1 / ((E - er - s * t) ^ 2 + g ^ 2) + 1 / ((E - er + s * t) ^ 2 + g ^ 2)) / 2) := by
  rw [cauchyPdf_frac _ hg, cauchyPdf_frac _ hg]
  have e1 : E - s * t - er = E - er - s * t := by ring
  have e2 : E + s * t - er = E - er + s * t := by ring
  rw [e1, e2]
  ring

/-- average of a polynomial of fourth degree -/
theorem std_poly (L a b : ℝ) : Integrable (fun t => normPdf 0 1 t * (L * (1 + a * t ^ 2 + b * t ^ 4))) ∧
    ∫ t, normPdf 0 1 t * (L * (1 + a * t ^ 2 + b * t ^ 4)) = L * (1 + a + 3 * b) := by
  have i0 := (norm_good 0 one_pos).integrable.const_mul L
  have i2 := (std_pow_integrable 2).const_mul (L * a)
  have i4 := (std_pow_integrable 4).const_mul (L * b)
  have e : (fun t => normPdf 0 1 t * (L * (1 + a * t ^ 2 + b * t ^ 4))) =
      fun t => L * normPdf 0 1 t + L * a * (t ^ 2 * normPdf 0 1 t) + L * b * (t ^ 4 * normPdf 0 1 t) := by
    funext t; ring
  rw [e]
  refine ⟨(i0.add i2).add i4, ?_⟩
  have i02 : Integrable fun t => L * normPdf 0 1 t + L * a * (t ^ 2 * normPdf 0 1 t) := i0.add i2
  rw [integral_add i02 i4, integral_add i0 i2, integral_const_mul, integral_const_mul, integral_const_mul,
    (norm_good 0 one_pos).integral, std_second, std_fourth]
  ring

theorem coldVoigt_ge (er E s : ℝ) {g : ℝ} (hg : 0 < g) :
    cauchyPdf er g E * (1 - s ^ 2 / ((E - er) ^ 2 + g ^ 2)) ≤ coldVoigt er g E s := by
  obtain ⟨hi, hv⟩ := std_poly (cauchyPdf er g E) (-(s ^ 2 / ((E - er) ^ 2 + g ^ 2))) 0
  rw [coldVoigt_symm er E s hg]
  have : cauchyPdf er g E * (1 - s ^ 2 / ((E - er) ^ 2 + g ^ 2)) = _ := (hv.trans (by ring)).symm
  rw [this]
  refine integral_mono hi (coldVoigt_symm_integrable er E s hg) fun t => ?_
  refine mul_le_mul_of_nonneg_left ?_ (normPdf_pos one_pos 0 t).le
  rw [sym_frac er E s t hg, cauchyPdf_frac er hg]
  have := mul_le_mul_of_nonneg_left (lor_lower hg (E - er) (s * t)) (show 0 ≤ g / Real.pi by have := Real.pi_pos; positivity)
  refine le_trans (le_of_eq ?_) this
  ring

theorem coldVoigt_le_global (er E s : ℝ) {g : ℝ} (hg : 0 < g) : coldVoigt er g E s ≤ cauchyPdf er g E * (1 + 3 / 2 * s ^ 2 / g ^ 2) := by
  obtain ⟨hi, hv⟩ := std_poly (cauchyPdf er g E) (3 / 2 * s ^ 2 / g ^ 2) 0
  rw [coldVoigt_symm er E s hg]
  have : cauchyPdf er g E * (1 + 3 / 2 * s ^ 2 / g ^ 2) = _ := (hv.trans (by ring)).symm
  rw [this]
  refine integral_mono (coldVoigt_symm_integrable er E s hg) hi fun t => ?_
  refine mul_le_mul_of_nonneg_left ?_ (normPdf_pos one_pos 0 t).le
  rw [sym_frac er E s t hg, cauchyPdf_frac er hg]
  have := mul_le_mul_of_nonneg_left (lor_global hg (E - er) (s * t)) (show 0 ≤ g / Real.pi by have := Real.pi_pos; positivity)
  refine le_trans this (le_of_eq ?_)
  ring

theorem coldVoigt_wing (er s : ℝ) {g E : ℝ} (hg : 0 < g) (hE : E ≠ er) :
    coldVoigt er g E s ≤ cauchyPdf er g E * (1 + (16 / 3 * s ^ 2 + 18 * s ^ 4 / g ^ 2) / (E - er) ^ 2) := by
  obtain ⟨hi, hv⟩ := std_poly (cauchyPdf er g E) (16 / 3 * s ^ 2 / (E - er) ^ 2) (6 * s ^ 4 / g ^ 2 / (E - er) ^ 2)
  rw [coldVoigt_symm er E s hg]
  have : cauchyPdf er g E * (1 + (16 / 3 * s ^ 2 + 18 * s ^ 4 / g ^ 2) / (E - er) ^ 2) = _ := (hv.trans (by ring)).symm
  rw [this]
  refine integral_mono (coldVoigt_symm_integrable er E s hg) hi fun t => ?_
  refine mul_le_mul_of_nonneg_left ?_ (normPdf_pos one_pos 0 t).le
  rw [sym_frac er E s t hg, cauchyPdf_frac er hg]
  have := mul_le_mul_of_nonneg_left (lor_wing hg (sub_ne_zero.2 hE) (s * t)) (show 0 ≤ g / Real.pi by have := Real.pi_pos; positivity)
  refine le_trans this (le_of_eq ?_)
  ring

end Ries
