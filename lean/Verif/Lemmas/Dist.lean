import Verif.Model.Dist
import Mathlib.Probability.Distributions.Gaussian.Real
import Mathlib.Probability.Distributions.Cauchy
import Mathlib.Analysis.SpecialFunctions.Trigonometric.ArctanDeriv
import Mathlib.MeasureTheory.Integral.IntegralEqImproper
import Mathlib.Topology.Order.IntermediateValue
import Mathlib.Analysis.Calculus.MeanValue
import Mathlib.Analysis.Calculus.Deriv.MeanValue
import Mathlib.MeasureTheory.Integral.IntervalIntegral.FundThmCalculus

/-! # Distribution functions with a continuous positive density -/

open MeasureTheory Filter Topology Set

namespace Ries

/-- `F` is a distribution function with continuous positive density `p`. -/
structure GoodCDF (F p : ℝ → ℝ) : Prop where
  deriv : ∀ x, HasDerivAt F (p x) x
  cont : Continuous p
  pos : ∀ x, 0 < p x
  bot : Tendsto F atBot (𝓝 0)
  top : Tendsto F atTop (𝓝 1)

namespace GoodCDF
variable {F p : ℝ → ℝ}

theorem continuous (h : GoodCDF F p) : Continuous F :=
  continuous_iff_continuousAt.2 fun x => (h.deriv x).continuousAt

theorem strictMono (h : GoodCDF F p) : StrictMono F :=
  strictMono_of_deriv_pos fun x => by rw [(h.deriv x).deriv]; exact h.pos x

theorem gt_zero (h : GoodCDF F p) (x : ℝ) : 0 < F x := by
  have h1 : F (x - 1) < F x := h.strictMono (by linarith)
  have h2 : 0 ≤ F (x - 1) := h.strictMono.monotone.le_of_tendsto h.bot _
  linarith

theorem lt_one (h : GoodCDF F p) (x : ℝ) : F x < 1 := by
  have h1 : F x < F (x + 1) := h.strictMono (by linarith)
  have h2 : F (x + 1) ≤ 1 := h.strictMono.monotone.ge_of_tendsto h.top _
  linarith

theorem surj (h : GoodCDF F p) {q : ℝ} (h0 : 0 < q) (h1 : q < 1) : ∃ x, F x = q := by
  obtain ⟨a, ha⟩ := (h.bot.eventually (gt_mem_nhds h0)).exists
  obtain ⟨b, hb⟩ := (h.top.eventually (lt_mem_nhds h1)).exists
  exact mem_range_of_exists_le_of_exists_ge h.continuous ⟨a, le_of_lt ha⟩ ⟨b, le_of_lt hb⟩

theorem invOf_spec (h : GoodCDF F p) {q : ℝ} (h0 : 0 < q) (h1 : q < 1) : F (invOf F q) = q := by
  have hx := h.surj h0 h1
  unfold invOf
  rw [dif_pos hx]
  exact hx.choose_spec

theorem intervalIntegral (h : GoodCDF F p) (a b : ℝ) : ∫ x in a..b, p x = F b - F a :=
  intervalIntegral.integral_eq_sub_of_hasDerivAt (fun x _ => h.deriv x)
    (h.cont.intervalIntegrable a b)

theorem integrable (h : GoodCDF F p) : Integrable p := by
  refine integrable_of_intervalIntegral_norm_tendsto (μ := volume) (l := atTop)
    (a := fun n : ℝ => -n) (b := fun n => n) 1 ?_ ?_ tendsto_id ?_
  · intro i; exact (h.cont.integrableOn_Icc).mono_set Ioc_subset_Icc_self
  · exact tendsto_neg_atTop_atBot
  · have : ∀ n : ℝ, ∫ x in -n..n, ‖p x‖ = F n - F (-n) := by
      intro n
      rw [← h.intervalIntegral]
      congr 1; ext x
      rw [Real.norm_of_nonneg (h.pos x).le]
    simp only [this]
    have := h.top.sub (h.bot.comp tendsto_neg_atTop_atBot)
    simpa using this

theorem integral (h : GoodCDF F p) : ∫ x, p x = 1 := by
  have h1 := intervalIntegral_tendsto_integral h.integrable tendsto_neg_atTop_atBot tendsto_id
  have h2 := h.top.sub (h.bot.comp tendsto_neg_atTop_atBot)
  simp only [h.intervalIntegral] at h1
  have := tendsto_nhds_unique h1 h2
  simpa using this

theorem integral_Iic (h : GoodCDF F p) (x : ℝ) : ∫ t in Iic x, p t = F x := by
  have h1 := intervalIntegral_tendsto_integral_Iic x h.integrable.integrableOn tendsto_id
  have h2 : Tendsto (fun a => F x - F a) atBot (𝓝 (F x - 0)) := tendsto_const_nhds.sub h.bot
  simp only [h.intervalIntegral] at h1
  simpa using tendsto_nhds_unique h1 h2

theorem integral_Ioi (h : GoodCDF F p) (x : ℝ) : ∫ t in Ioi x, p t = 1 - F x := by
  have := integral_add_compl (s := Iic x) measurableSet_Iic h.integrable
  rw [compl_Iic, h.integral_Iic, h.integral] at this
  linarith

/-- The distribution function of a continuous positive density with integral 1. -/
theorem of_density (hc : Continuous p) (hp : ∀ x, 0 < p x) (hi : Integrable p)
    (h1 : ∫ x, p x = 1) : GoodCDF (fun x => ∫ t in Iic x, p t) p where
  deriv x := by
    have h0 : ∀ y, ∫ t in Iic y, p t = (∫ t in Iic (0:ℝ), p t) + ∫ t in (0:ℝ)..y, p t := by
      intro y
      rw [← intervalIntegral.integral_Iic_sub_Iic hi.integrableOn hi.integrableOn]
      ring
    have h2 : HasDerivAt (fun y => ∫ t in (0:ℝ)..y, p t) (p x) x :=
      intervalIntegral.integral_hasDerivAt_right (hc.intervalIntegrable _ _)
        (hc.stronglyMeasurableAtFilter _ _) hc.continuousAt
    rw [funext h0]
    exact h2.const_add _
  cont := hc
  pos := hp
  bot := by
    exact tendsto_integral_Iic_zero tendsto_id
  top := by
    have h0 : ∀ y, ∫ t in Iic y, p t = (∫ t in Iic (0:ℝ), p t) + ∫ t in (0:ℝ)..y, p t := by
      intro y
      rw [← intervalIntegral.integral_Iic_sub_Iic hi.integrableOn hi.integrableOn]
      ring
    have h2 := intervalIntegral_tendsto_integral_Ioi 0 hi.integrableOn tendsto_id
    have h3 := integral_add_compl (s := Iic (0:ℝ)) measurableSet_Iic hi
    rw [compl_Iic, h1] at h3
    rw [funext h0]
    rw [← h3]
    exact tendsto_const_nhds.add h2

end GoodCDF

theorem cauchyPdf_pos {s : ℝ} (hs : 0 < s) (l x : ℝ) : 0 < cauchyPdf l s x := by
  unfold cauchyPdf
  have := Real.pi_pos
  positivity

theorem cauchy_good (l : ℝ) {s : ℝ} (hs : 0 < s) : GoodCDF (cauchyCdf l s) (cauchyPdf l s) where
  deriv x := by
    have h1 : HasDerivAt (fun x : ℝ => (x - l) / s) (1 / s) x :=
      ((hasDerivAt_id x).sub_const l).div_const s
    have h2 := ((h1.arctan).const_mul (1 / Real.pi)).const_add (1 / 2)
    refine h2.congr_deriv ?_
    unfold cauchyPdf
    have := Real.pi_pos.ne'
    have h3 : (1 + ((x - l) / s) ^ 2) ≠ 0 := by positivity
    field_simp
  cont := by
    unfold cauchyPdf
    have := Real.pi_pos
    refine Continuous.div continuous_const (by fun_prop) fun x => ?_
    positivity
  pos := cauchyPdf_pos hs l
  bot := by
    have h1 : Tendsto (fun x : ℝ => (x - l) / s) atBot atBot :=
      (tendsto_atBot_add_const_right _ (-l) tendsto_id).atBot_div_const hs
    have h2 := (Real.tendsto_arctan_atBot.mono_right nhdsWithin_le_nhds).comp h1
    have h3 := (h2.const_mul (1 / Real.pi)).const_add (1 / 2)
    have hpi := Real.pi_pos.ne'
    have : (1 / 2 + 1 / Real.pi * (-(Real.pi / 2))) = 0 := by field_simp; ring
    rw [this] at h3
    exact h3
  top := by
    have h1 : Tendsto (fun x : ℝ => (x - l) / s) atTop atTop :=
      (tendsto_atTop_add_const_right _ (-l) tendsto_id).atTop_div_const hs
    have h2 := (Real.tendsto_arctan_atTop.mono_right nhdsWithin_le_nhds).comp h1
    have h3 := (h2.const_mul (1 / Real.pi)).const_add (1 / 2)
    have hpi := Real.pi_pos.ne'
    have : (1 / 2 + 1 / Real.pi * (Real.pi / 2)) = 1 := by field_simp; ring
    rw [this] at h3
    exact h3

theorem cauchyPpf_spec (l : ℝ) {s : ℝ} (hs : 0 < s) {q : ℝ} (h0 : 0 < q) (h1 : q < 1) :
    cauchyCdf l s (cauchyPpf l s q) = q := by
  unfold cauchyCdf cauchyPpf
  have hpi := Real.pi_pos
  have e : (l + s * Real.tan (Real.pi * q - Real.pi / 2) - l) / s
      = Real.tan (Real.pi * q - Real.pi / 2) := by
    field_simp; ring
  rw [e, Real.arctan_tan (by nlinarith) (by nlinarith)]
  field_simp; ring

theorem normPdf_eq (l : ℝ) {s : ℝ} (hs : 0 < s) (x : ℝ) :
    normPdf l s x = ProbabilityTheory.gaussianPDFReal l (Real.toNNReal (s ^ 2)) x := by
  unfold normPdf ProbabilityTheory.gaussianPDFReal
  have h1 : Real.sqrt (2 * Real.pi * s ^ 2) = s * Real.sqrt (2 * Real.pi) := by
    rw [Real.sqrt_mul (by positivity), Real.sqrt_sq hs.le]; ring
  rw [Real.coe_toNNReal _ (by positivity), h1, div_eq_inv_mul]
  congr 2
  field_simp

theorem normPdf_pos {s : ℝ} (hs : 0 < s) (l x : ℝ) : 0 < normPdf l s x := by
  unfold normPdf
  have := Real.pi_pos
  positivity

theorem normPdf_continuous (l s : ℝ) : Continuous (normPdf l s) := by
  unfold normPdf
  fun_prop

theorem norm_good (l : ℝ) {s : ℝ} (hs : 0 < s) : GoodCDF (normCdf l s) (normPdf l s) := by
  have e : normPdf l s = ProbabilityTheory.gaussianPDFReal l (Real.toNNReal (s ^ 2)) :=
    funext fun x => normPdf_eq l hs x
  refine GoodCDF.of_density (normPdf_continuous l s) (normPdf_pos hs l) ?_ ?_
  · rw [e]; exact ProbabilityTheory.integrable_gaussianPDFReal _ _
  · rw [e]
    exact ProbabilityTheory.integral_gaussianPDFReal_eq_one _ (by
      have : 0 < s ^ 2 := by positivity
      simpa using this.ne')

/-- reflection: a density symmetric about `l` gives `F (l + d) + F (l - d) = 1` -/
theorem GoodCDF.add_of_symm {F p : ℝ → ℝ} (h : GoodCDF F p) (l : ℝ)
    (hs : ∀ d, p (l + d) = p (l - d)) (d : ℝ) : F (l + d) + F (l - d) = 1 := by
  have hF : ∀ d, HasDerivAt (fun d => F (l + d) + F (l - d)) 0 d := by
    intro d
    have h1 : HasDerivAt (fun d => F (l + d)) (p (l + d)) d := by
      exact ((h.deriv (l + d)).comp d ((hasDerivAt_id d).const_add l)).congr_deriv (by simp)
    have h2 : HasDerivAt (fun d => F (l - d)) (-p (l - d)) d := by
      exact ((h.deriv (l - d)).comp d ((hasDerivAt_id d).const_sub l)).congr_deriv (by simp)
    exact (h1.add h2).congr_deriv (by rw [hs d]; ring)
  have hconst : ∀ d, F (l + d) + F (l - d) = F (l + 0) + F (l - 0) := fun d =>
    is_const_of_deriv_eq_zero (fun x => (hF x).differentiableAt) (fun x => (hF x).deriv) d 0
  have ht : Tendsto (fun d => F (l + d) + F (l - d)) atTop (𝓝 (1 + 0)) := by
    refine Tendsto.add (h.top.comp ?_) (h.bot.comp ?_)
    · exact tendsto_atTop_add_const_left _ l tendsto_id
    · have e : (HSub.hSub l : ℝ → ℝ) = fun d => l + -d := by ext; ring
      rw [e]
      exact tendsto_atBot_add_const_left _ l tendsto_neg_atTop_atBot
  simp only [hconst] at ht
  have := tendsto_nhds_unique ht tendsto_const_nhds
  rw [hconst]
  linarith

theorem GoodCDF.half_of_symm {F p : ℝ → ℝ} (h : GoodCDF F p) (l : ℝ)
    (hs : ∀ d, p (l + d) = p (l - d)) : F l = 1 / 2 := by
  have := h.add_of_symm l hs 0
  simp only [add_zero, sub_zero] at this
  linarith

theorem normPdf_symm (l s d : ℝ) : normPdf l s (l + d) = normPdf l s (l - d) := by
  unfold normPdf
  congr 2
  ring

theorem cauchyPdf_symm (l s d : ℝ) : cauchyPdf l s (l + d) = cauchyPdf l s (l - d) := by
  unfold cauchyPdf
  congr 3
  ring

end Ries

namespace Ries

/-- `p` is symmetric about `c` and strictly decreases with the distance from `c`. -/
structure Peaked (c : ℝ) (p : ℝ → ℝ) : Prop where
  symm : ∀ d, p (c + d) = p (c - d)
  anti : ∀ d e, 0 ≤ d → d < e → p (c + e) < p (c + d)

namespace Peaked
variable {c : ℝ} {p : ℝ → ℝ}

theorem abs_eq (h : Peaked c p) (d : ℝ) : p (c + |d|) = p (c + d) := by
  rcases abs_cases d with ⟨e, _⟩ | ⟨e, _⟩
  · rw [e]
  · rw [e, h.symm d]; congr 1

theorem lt_of_abs (h : Peaked c p) {d e : ℝ} (hde : |d| < |e|) : p (c + e) < p (c + d) := by
  rw [← h.abs_eq d, ← h.abs_eq e]
  exact h.anti _ _ (abs_nonneg d) hde

theorem le_of_abs (h : Peaked c p) {d e : ℝ} (hde : |d| ≤ |e|) : p (c + e) ≤ p (c + d) := by
  rcases hde.lt_or_eq with hlt | heq
  · exact (h.lt_of_abs hlt).le
  · rw [← h.abs_eq d, ← h.abs_eq e, heq]

theorem le_peak (h : Peaked c p) (x : ℝ) : p x ≤ p c := by
  have := h.le_of_abs (d := 0) (e := x - c) (by simp)
  simpa using this

theorem const_mul (h : Peaked c p) {k : ℝ} (hk : 0 < k) : Peaked c fun x => k * p x where
  symm d := by rw [h.symm d]
  anti d e h0 hde := mul_lt_mul_of_pos_left (h.anti d e h0 hde) hk

theorem mix {q : ℝ → ℝ} (h : Peaked c p) (hq : Peaked c q) {t : ℝ} (h0 : 0 ≤ t) (h1 : t ≤ 1) :
    Peaked c fun x => (1 - t) * p x + t * q x where
  symm d := by rw [h.symm d, hq.symm d]
  anti d e hd hde := by
    have a := h.anti d e hd hde
    have b := hq.anti d e hd hde
    rcases h0.eq_or_lt with rfl | h0
    · simpa using a
    · have : (1 - t) * p (c + e) ≤ (1 - t) * p (c + d) := mul_le_mul_of_nonneg_left a.le (by linarith)
      have := mul_lt_mul_of_pos_left b h0
      linarith

end Peaked

theorem norm_peaked (l : ℝ) {s : ℝ} (hs : 0 < s) : Peaked l (normPdf l s) where
  symm d := normPdf_symm l s d
  anti d e hd hde := by
    unfold normPdf
    have hpi := Real.pi_pos
    refine div_lt_div_of_pos_right ?_ (by positivity)
    rw [Real.exp_lt_exp]
    have h1 : (l + d - l) / s < (l + e - l) / s := div_lt_div_of_pos_right (by linarith) hs
    have h2 : 0 ≤ (l + d - l) / s := div_nonneg (by linarith) hs.le
    have : ((l + d - l) / s) ^ 2 < ((l + e - l) / s) ^ 2 := by gcongr
    linarith

theorem cauchy_peaked (l : ℝ) {s : ℝ} (hs : 0 < s) : Peaked l (cauchyPdf l s) where
  symm d := cauchyPdf_symm l s d
  anti d e hd hde := by
    unfold cauchyPdf
    have hpi := Real.pi_pos
    refine one_div_lt_one_div_of_lt (by positivity) ?_
    have h1 : (l + d - l) / s < (l + e - l) / s := div_lt_div_of_pos_right (by linarith) hs
    have h2 : 0 ≤ (l + d - l) / s := div_nonneg (by linarith) hs.le
    have : ((l + d - l) / s) ^ 2 < ((l + e - l) / s) ^ 2 := by gcongr
    gcongr

theorem GoodCDF.mix {F p G q : ℝ → ℝ} (hF : GoodCDF F p) (hG : GoodCDF G q) {t : ℝ} (h0 : 0 ≤ t) (h1 : t ≤ 1) :
    GoodCDF (fun x => (1 - t) * F x + t * G x) (fun x => (1 - t) * p x + t * q x) where
  deriv x := ((hF.deriv x).const_mul (1 - t)).add ((hG.deriv x).const_mul t)
  cont := (continuous_const.mul hF.cont).add (continuous_const.mul hG.cont)
  pos x := by
    have a := hF.pos x
    have b := hG.pos x
    rcases h0.eq_or_lt with rfl | h0
    · simpa using a
    · have : 0 ≤ (1 - t) * p x := mul_nonneg (by linarith) a.le
      have := mul_pos h0 b
      linarith
  bot := by
    have := (hF.bot.const_mul (1 - t)).add (hG.bot.const_mul t)
    simpa using this
  top := by
    have := (hF.top.const_mul (1 - t)).add (hG.top.const_mul t)
    simpa using this

end Ries
