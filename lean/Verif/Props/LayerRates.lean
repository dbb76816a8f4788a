import Verif.Props.Beam
import Mathlib.MeasureTheory.Integral.Prod

/-! # Properties C144 and C145: reaction rates in the layers of a target, widths from half lives -/

open MeasureTheory Set

namespace Ries

/-- fraction of the photons that passes a layer of areal density `d` with the nonresonant cross section `a`, the resonant cross section `b`
and the abundance `x` -/
noncomputable def passing (a b : ℝ → ℝ) (x d E : ℝ) : ℝ := Real.exp (-((a E + x * b E) * d))

/-- fraction of the photons that is absorbed resonantly in such a layer: the fraction that does not pass, times the share of the
resonance in the total cross section -/
noncomputable def layerAbsorbed (a b : ℝ → ℝ) (x d E : ℝ) : ℝ := x * b E / (a E + x * b E) * (1 - passing a b x d E)

theorem integral_layer {c k p : ℝ} (hk : c = 0 → k = 0) (r₀ d : ℝ) :
    (∫ ρ in r₀..(r₀ + d), p * (k * Real.exp (-c * (ρ - r₀)))) = p * (k / c * (1 - Real.exp (-(c * d)))) := by
  rcases eq_or_ne c 0 with h | h
  · simp [hk h]
  · rw [intervalIntegral.integral_eq_sub_of_hasDerivAt (f := fun ρ => -(p * (k / c) * Real.exp (-c * (ρ - r₀))))]
    · simp; ring
    · intro ρ _
      have h1 : HasDerivAt (fun ρ => Real.exp (-c * (ρ - r₀))) (Real.exp (-c * (ρ - r₀)) * (-c * 1)) ρ :=
        (((hasDerivAt_id ρ).sub_const r₀).const_mul (-c)).exp
      exact (h1.const_mul (p * (k / c))).neg.congr_deriv (by field_simp)
    · exact Continuous.intervalIntegrable (by fun_prop) _ _

/-- the order of the two integrations can be exchanged -/
theorem integral_swap {a b p : ℝ → ℝ} {x E₀ E₁ r₀ d : ℝ} (hx : 0 ≤ x) (ha0 : ∀ E, 0 ≤ a E) (hb0 : ∀ E, 0 ≤ b E) (hE : E₀ ≤ E₁)
    (hd : 0 ≤ d) (hai : IntervalIntegrable a volume E₀ E₁) (hbi : IntervalIntegrable b volume E₀ E₁)
    (hp : AEStronglyMeasurable p (volume.restrict (Ioc E₀ E₁))) (hp1 : ∀ E, |p E| ≤ 1) :
    (∫ ρ in r₀..(r₀ + d), ∫ E in E₀..E₁, p E * (x * b E * Real.exp (-(a E + x * b E) * (ρ - r₀)))) =
      ∫ E in E₀..E₁, ∫ ρ in r₀..(r₀ + d), p E * (x * b E * Real.exp (-(a E + x * b E) * (ρ - r₀))) := by
  have hr : r₀ ≤ r₀ + d := by linarith
  simp only [intervalIntegral.integral_of_le hr, intervalIntegral.integral_of_le hE]
  have hai' : Integrable a (volume.restrict (Ioc E₀ E₁)) := hai.1
  have hbi' : Integrable b (volume.restrict (Ioc E₀ E₁)) := hbi.1
  refine integral_integral_swap ?_
  have hf : Integrable (fun q : ℝ × ℝ => x * b q.2) ((volume.restrict (Ioc r₀ (r₀ + d))).prod (volume.restrict (Ioc E₀ E₁))) :=
    (hbi'.const_mul x).comp_snd _
  refine hf.mono ?_ ?_
  · have m1 := hp.comp_snd (μ := volume.restrict (Ioc r₀ (r₀ + d)))
    have m2 := hbi'.aestronglyMeasurable.comp_snd (μ := volume.restrict (Ioc r₀ (r₀ + d)))
    have m3 := hai'.aestronglyMeasurable.comp_snd (μ := volume.restrict (Ioc r₀ (r₀ + d)))
    have m4 : AEStronglyMeasurable (fun q : ℝ × ℝ => q.1 - r₀)
        ((volume.restrict (Ioc r₀ (r₀ + d))).prod (volume.restrict (Ioc E₀ E₁))) :=
      (Continuous.aestronglyMeasurable (by fun_prop))
    exact m1.mul ((m2.const_mul x).mul (Real.continuous_exp.comp_aestronglyMeasurable (((m3.add (m2.const_mul x)).neg).mul m4)))
  · have hall : ∀ᵐ q ∂((volume.restrict (Ioc r₀ (r₀ + d))).prod (volume.restrict (Ioc E₀ E₁))), q.1 ∈ Ioc r₀ (r₀ + d) := by
      rw [Measure.prod_restrict]
      filter_upwards [ae_restrict_mem (measurableSet_Ioc.prod measurableSet_Ioc)] with q hq
      exact hq.1
    filter_upwards [hall] with q hq
    simp only [Function.uncurry]
    rw [norm_mul, norm_mul (x * b q.2)]
    have h1 : ‖Real.exp (-(a q.2 + x * b q.2) * (q.1 - r₀))‖ ≤ 1 := by
      rw [Real.norm_of_nonneg (Real.exp_pos _).le, Real.exp_le_one_iff]
      have := mul_nonneg (add_nonneg (ha0 q.2) (mul_nonneg hx (hb0 q.2))) (sub_nonneg.2 hq.1.le)
      linarith
    have h2 := mul_le_of_le_one_right (norm_nonneg (x * b q.2)) h1
    exact (mul_le_of_le_one_left (by positivity) (hp1 q.2)).trans h2

/-- one layer behind others that let the fraction `p` pass -/
theorem layer_rate {a b p : ℝ → ℝ} {x E₀ E₁ r₀ d : ℝ} (hx : 0 ≤ x) (ha0 : ∀ E, 0 ≤ a E) (hb0 : ∀ E, 0 ≤ b E) (hE : E₀ ≤ E₁)
    (hd : 0 ≤ d) (hai : IntervalIntegrable a volume E₀ E₁) (hbi : IntervalIntegrable b volume E₀ E₁)
    (hp : AEStronglyMeasurable p (volume.restrict (Ioc E₀ E₁))) (hp1 : ∀ E, |p E| ≤ 1) :
    (∫ ρ in r₀..(r₀ + d), ∫ E in E₀..E₁, p E * (x * b E * Real.exp (-(a E + x * b E) * (ρ - r₀)))) =
      ∫ E in E₀..E₁, p E * layerAbsorbed a b x d E := by
  rw [integral_swap hx ha0 hb0 hE hd hai hbi hp hp1]
  refine intervalIntegral.integral_congr fun E _ => ?_
  simp only [layerAbsorbed, passing]
  refine integral_layer (fun h => ?_) r₀ d
  have := mul_nonneg hx (hb0 E)
  linarith [ha0 E]

theorem passing_meas {a b : ℝ → ℝ} {E₀ E₁ : ℝ} (hai : IntervalIntegrable a volume E₀ E₁) (hbi : IntervalIntegrable b volume E₀ E₁)
    (x d : ℝ) : AEStronglyMeasurable (passing a b x d) (volume.restrict (Ioc E₀ E₁)) :=
  Real.continuous_exp.comp_aestronglyMeasurable
    (((hai.1.aestronglyMeasurable.add (hbi.1.aestronglyMeasurable.const_mul x)).mul_const d).neg)

theorem passing_pos (a b : ℝ → ℝ) (x d E : ℝ) : 0 < passing a b x d E := Real.exp_pos _

theorem passing_le {a b : ℝ → ℝ} {x d : ℝ} (hx : 0 ≤ x) (ha0 : ∀ E, 0 ≤ a E) (hb0 : ∀ E, 0 ≤ b E) (hd : 0 ≤ d) (E : ℝ) :
    passing a b x d E ≤ 1 := by
  rw [passing, Real.exp_le_one_iff, neg_nonpos]
  exact mul_nonneg (add_nonneg (ha0 E) (mul_nonneg hx (hb0 E))) hd

theorem passing_abs {a b : ℝ → ℝ} {x d : ℝ} (hx : 0 ≤ x) (ha0 : ∀ E, 0 ≤ a E) (hb0 : ∀ E, 0 ≤ b E) (hd : 0 ≤ d) (E : ℝ) :
    |passing a b x d E| ≤ 1 := by
  rw [abs_of_pos (passing_pos a b x d E)]
  exact passing_le hx ha0 hb0 hd E

/-- The double integrals of the notebook are integrals over the energy only. For a single layer the rate is the integral of the
fraction of the photons absorbed resonantly. -/
theorem single_total {nr r : Callable} {a b : ℝ → ℝ} (ha : HasValues nr a) (hb : HasValues r b) {x : ℝ} (hx : 0 ≤ x)
    (ha0 : ∀ E, 0 ≤ a E) (hb0 : ∀ E, 0 ≤ b E) {E₀ E₁ : ℝ} (hE : E₀ ≤ E₁) (hai : IntervalIntegrable a volume E₀ E₁)
    (hbi : IntervalIntegrable b volume E₀ E₁) {d : ℝ} (hd : 0 ≤ d) :
    countRate nr r x E₀ E₁ d = ∫ E in E₀..E₁, layerAbsorbed a b x d E := by
  have := layer_rate (p := fun _ => 1) (r₀ := 0) hx ha0 hb0 hE hd hai hbi aestronglyMeasurable_const (by simp)
  simpa [countRate, nquad2, layerAlpha_ok ha hb, valueOf] using this

/-- In the layers of the composite target the rates are the integrals of the fraction absorbed resonantly in this layer times the
fractions that pass the layers in front of it. -/
theorem layers_total (t : LayerTarget) {σ σ₂ σ₆ : ℝ → ℝ} (h0 : HasValues t.nr σ) (h2 : HasValues t.s112 σ₂) (h6 : HasValues t.s116 σ₆)
    (d1 : 0 ≤ t.dI) (d2 : 0 ≤ t.dII) (d3 : 0 ≤ t.dIII) (d4 : 0 ≤ t.dIV) (x2 : 0 ≤ t.x112) (x6 : 0 ≤ t.x116)
    (p0 : ∀ E, 0 ≤ σ E) (p2 : ∀ E, 0 ≤ σ₂ E) (p6 : ∀ E, 0 ≤ σ₆ E) {E₀ E₁ : ℝ} (hE : E₀ ≤ E₁)
    (i0 : IntervalIntegrable σ volume E₀ E₁) (i2 : IntervalIntegrable σ₂ volume E₀ E₁) (i6 : IntervalIntegrable σ₆ volume E₀ E₁) :
    t.rateI E₀ E₁ = (∫ E in E₀..E₁, layerAbsorbed σ σ₆ t.x116 t.dI E) ∧
    t.rateII E₀ E₁ = (∫ E in E₀..E₁, passing σ σ₆ t.x116 t.dI E * layerAbsorbed σ σ₂ t.x112 t.dII E) ∧
    t.rateIII E₀ E₁ = (∫ E in E₀..E₁, passing σ σ₆ t.x116 t.dI E * passing σ σ₂ t.x112 t.dII E * layerAbsorbed σ σ₆ t.x116 t.dIII E) ∧
    t.rateIV E₀ E₁ = (∫ E in E₀..E₁, passing σ σ₆ t.x116 t.dI E * passing σ σ₂ t.x112 t.dII E * passing σ σ₆ t.x116 t.dIII E *
      layerAbsorbed σ σ₂ t.x112 t.dIV E) := by
  have e1 : t.rhoI - t.rho0 = t.dI := by simp [LayerTarget.rhoI]
  have e2 : t.rhoII - t.rhoI = t.dII := by simp [LayerTarget.rhoII]
  have e3 : t.rhoIII - t.rhoII = t.dIII := by simp [LayerTarget.rhoIII]
  have m6 := passing_meas i0 i6 t.x116
  have m2 := passing_meas i0 i2 t.x112
  have b6 := fun d hd => passing_abs (d := d) x6 p0 p6 hd
  have b2 := fun d hd => passing_abs (d := d) x2 p0 p2 hd
  have prod : ∀ {f g : ℝ → ℝ}, (∀ E, |f E| ≤ 1) → (∀ E, |g E| ≤ 1) → ∀ E, |f E * g E| ≤ 1 := by
    intro f g hf hg E
    rw [abs_mul]
    exact mul_le_one₀ (hf E) (abs_nonneg _) (hg E)
  refine ⟨?_, ?_, ?_, ?_⟩
  · have := layer_rate (p := fun _ => 1) (r₀ := t.rho0) x6 p0 p6 hE d1 i0 i6 aestronglyMeasurable_const (by simp)
    simpa [LayerTarget.rateI, LayerTarget.dNI, nquad2, layerAlpha_ok h0 h6, valueOf, LayerTarget.rhoI] using this
  · have := layer_rate (r₀ := t.rhoI) x2 p0 p2 hE d2 i0 i2 (m6 t.dI) (b6 _ d1)
    rw [← this]
    simp only [LayerTarget.rateII, LayerTarget.dNII, nquad2, layerPhi_ok h0 h6, layerAlpha_ok h0 h2, valueOf, e1, passing, bind,
      Except.bind, neg_mul, LayerTarget.rhoII]
  · have := layer_rate (r₀ := t.rhoII) x6 p0 p6 hE d3 i0 i6 ((m6 t.dI).mul (m2 t.dII)) (prod (b6 _ d1) (b2 _ d2))
    rw [Pi.mul_def] at this
    rw [← this]
    simp only [LayerTarget.rateIII, LayerTarget.dNIII, nquad2, layerPhi_ok h0 h6, layerPhi_ok h0 h2, layerAlpha_ok h0 h6, valueOf, e1,
      e2, passing, bind, Except.bind, neg_mul, LayerTarget.rhoIII]
  · have := layer_rate (r₀ := t.rhoIII) x2 p0 p2 hE d4 i0 i2 (((m6 t.dI).mul (m2 t.dII)).mul (m6 t.dIII))
      (prod (prod (b6 _ d1) (b2 _ d2)) (b6 _ d3))
    simp only [Pi.mul_def] at this
    rw [← this]
    simp only [LayerTarget.rateIV, LayerTarget.dNIV, nquad2, layerPhi_ok h0 h6, layerPhi_ok h0 h2, layerAlpha_ok h0 h2, valueOf, e1,
      e2, e3, passing, bind, Except.bind, neg_mul, LayerTarget.rhoIV]

theorem absorbed_mono {a b : ℝ → ℝ} {x : ℝ} (hx : 0 ≤ x) (ha0 : ∀ E, 0 ≤ a E) (hb0 : ∀ E, 0 ≤ b E) {d e : ℝ} (h : d ≤ e) (E : ℝ) :
    layerAbsorbed a b x d E ≤ layerAbsorbed a b x e E := by
  have hc := add_nonneg (ha0 E) (mul_nonneg hx (hb0 E))
  refine mul_le_mul_of_nonneg_left (sub_le_sub_left (Real.exp_le_exp.2 (neg_le_neg ?_)) 1) (div_nonneg (mul_nonneg hx (hb0 E)) hc)
  exact mul_le_mul_of_nonneg_left h hc

theorem absorbed_pos {a b : ℝ → ℝ} {x : ℝ} (hx : 0 < x) (ha0 : ∀ E, 0 ≤ a E) (hb0 : ∀ E, 0 < b E) {d : ℝ} (hd : 0 < d) (E : ℝ) :
    0 < layerAbsorbed a b x d E := by
  have hxb := mul_pos hx (hb0 E)
  have hc := add_pos_of_nonneg_of_pos (ha0 E) hxb
  refine mul_pos (div_pos hxb hc) (sub_pos.2 (Real.exp_lt_one_iff.2 ?_))
  exact neg_neg_of_pos (mul_pos hc hd)

theorem absorbed_nonneg {a b : ℝ → ℝ} {x : ℝ} (hx : 0 ≤ x) (ha0 : ∀ E, 0 ≤ a E) (hb0 : ∀ E, 0 ≤ b E) {d : ℝ} (hd : 0 ≤ d) (E : ℝ) :
    0 ≤ layerAbsorbed a b x d E := by
  have := absorbed_mono hx ha0 hb0 hd E
  simpa [layerAbsorbed, passing] using this

theorem absorbed_le {a b : ℝ → ℝ} {x : ℝ} (hx : 0 ≤ x) (ha0 : ∀ E, 0 ≤ a E) (hb0 : ∀ E, 0 ≤ b E) {d : ℝ} (hd : 0 ≤ d) (E : ℝ) :
    layerAbsorbed a b x d E ≤ 1 - passing a b x d E := by
  refine mul_le_of_le_one_left (sub_nonneg.2 (passing_le hx ha0 hb0 hd E)) (div_le_one_of_le₀ ?_ ?_)
  · linarith [ha0 E]
  · exact add_nonneg (ha0 E) (mul_nonneg hx (hb0 E))

theorem absorbed_meas {a b : ℝ → ℝ} {E₀ E₁ : ℝ} (hai : IntervalIntegrable a volume E₀ E₁) (hbi : IntervalIntegrable b volume E₀ E₁)
    (x d : ℝ) : AEStronglyMeasurable (layerAbsorbed a b x d) (volume.restrict (Ioc E₀ E₁)) := by
  have m := hbi.1.aestronglyMeasurable.const_mul x
  have := (m.aemeasurable.div (hai.1.aestronglyMeasurable.add m).aemeasurable).aestronglyMeasurable
  exact this.mul (aestronglyMeasurable_const.sub (passing_meas hai hbi x d))

theorem integrable_of_bounded {f : ℝ → ℝ} {E₀ E₁ : ℝ} (hE : E₀ ≤ E₁) (hm : AEStronglyMeasurable f (volume.restrict (Ioc E₀ E₁)))
    (h0 : ∀ E, 0 ≤ f E) (h1 : ∀ E, f E ≤ 1) : IntervalIntegrable f volume E₀ E₁ := by
  rw [intervalIntegrable_iff_integrableOn_Ioc_of_le hE]
  refine Integrable.mono' (g := fun _ => 1) (integrableOn_const (by simp)) hm (Filter.Eventually.of_forall fun E => ?_)
  rw [Real.norm_of_nonneg (h0 E)]
  exact h1 E

/-- a target of four layers with cross sections that have values at all energies -/
structure TotalTarget (t : LayerTarget) (σ σ₂ σ₆ : ℝ → ℝ) (E₀ E₁ : ℝ) : Prop where
  h0 : HasValues t.nr σ
  h2 : HasValues t.s112 σ₂
  h6 : HasValues t.s116 σ₆
  d1 : 0 < t.dI
  d2 : 0 < t.dII
  d3 : 0 < t.dIII
  d4 : 0 < t.dIV
  x2 : 0 < t.x112
  x6 : 0 < t.x116
  p0 : ∀ E, 0 ≤ σ E
  p2 : ∀ E, 0 < σ₂ E
  p6 : ∀ E, 0 < σ₆ E
  hE : E₀ < E₁
  i0 : IntervalIntegrable σ volume E₀ E₁
  i2 : IntervalIntegrable σ₂ volume E₀ E₁
  i6 : IntervalIntegrable σ₆ volume E₀ E₁

theorem intervalIntegral_lt {f g : ℝ → ℝ} {E₀ E₁ : ℝ} (hE : E₀ < E₁) (hf : IntervalIntegrable f volume E₀ E₁)
    (hg : IntervalIntegrable g volume E₀ E₁) (h : ∀ E, f E < g E) : (∫ E in E₀..E₁, f E) < ∫ E in E₀..E₁, g E := by
  rw [← sub_pos, ← intervalIntegral.integral_sub hg hf]
  exact intervalIntegral.intervalIntegral_pos_of_pos_on (hg.sub hf) (fun E _ => sub_pos.2 (h E)) hE

/-- A layer in the shadow of others sees fewer reactions: the third layer, if it is not thicker than the first, has a smaller rate
than the first, and the fourth, if it is not thicker than the second, a smaller rate than the second. All rates are positive, and all four
together, in the same range of energies, are smaller than the number of photons that do not pass the target. -/
theorem shadow_total (t : LayerTarget) {σ σ₂ σ₆ : ℝ → ℝ} {E₀ E₁ : ℝ} (h : TotalTarget t σ σ₂ σ₆ E₀ E₁) :
    (t.dIII ≤ t.dI → t.rateIII E₀ E₁ < t.rateI E₀ E₁) ∧ (t.dIV ≤ t.dII → t.rateIV E₀ E₁ < t.rateII E₀ E₁) ∧
    0 < t.rateIII E₀ E₁ ∧ 0 < t.rateIV E₀ E₁ ∧ 0 < t.rateI E₀ E₁ ∧ 0 < t.rateII E₀ E₁ ∧
    t.rateI E₀ E₁ + t.rateII E₀ E₁ + t.rateIII E₀ E₁ + t.rateIV E₀ E₁ ≤ ∫ E in E₀..E₁, 1 -
      passing σ σ₆ t.x116 t.dI E * passing σ σ₂ t.x112 t.dII E * passing σ σ₆ t.x116 t.dIII E * passing σ σ₂ t.x112 t.dIV E := by
  obtain ⟨h0, h2, h6, d1, d2, d3, d4, x2, x6, p0, p2, p6, hE, i0, i2, i6⟩ := h
  have q2 := fun E => (p2 E).le
  have q6 := fun E => (p6 E).le
  obtain ⟨e1, e2, e3, e4⟩ := layers_total t h0 h2 h6 d1.le d2.le d3.le d4.le x2.le x6.le p0 q2 q6 hE.le i0 i2 i6
  have pos6 := fun d E => passing_pos σ σ₆ t.x116 d E
  have pos2 := fun d E => passing_pos σ σ₂ t.x112 d E
  have lt6 : ∀ d, 0 < d → ∀ E, passing σ σ₆ t.x116 d E < 1 := fun d hd E =>
    Real.exp_lt_one_iff.2 (neg_neg_of_pos (mul_pos (add_pos_of_nonneg_of_pos (p0 E) (mul_pos x6 (p6 E))) hd))
  have lt2 : ∀ d, 0 < d → ∀ E, passing σ σ₂ t.x112 d E < 1 := fun d hd E =>
    Real.exp_lt_one_iff.2 (neg_neg_of_pos (mul_pos (add_pos_of_nonneg_of_pos (p0 E) (mul_pos x2 (p2 E))) hd))
  have apos6 := fun d hd E => absorbed_pos (d := d) x6 p0 p6 hd E
  have apos2 := fun d hd E => absorbed_pos (d := d) x2 p0 p2 hd E
  have ale6 := fun d hd E => absorbed_le (d := d) x6.le p0 q6 hd E
  have ale2 := fun d hd E => absorbed_le (d := d) x2.le p0 q2 hd E
  have am6 := fun d d' h E => absorbed_mono (d := d) (e := d') x6.le p0 q6 h E
  have am2 := fun d d' h E => absorbed_mono (d := d) (e := d') x2.le p0 q2 h E
  have m6 := passing_meas i0 i6 t.x116
  have m2 := passing_meas i0 i2 t.x112
  have n6 := absorbed_meas i0 i6 t.x116
  have n2 := absorbed_meas i0 i2 t.x112
  have f1 : IntervalIntegrable (fun E => layerAbsorbed σ σ₆ t.x116 t.dI E) volume E₀ E₁ :=
    integrable_of_bounded hE.le (n6 _) (fun E => (apos6 _ d1 E).le) (fun E => (ale6 _ d1.le E).trans (by linarith [pos6 t.dI E]))
  have b2 : ∀ E, layerAbsorbed σ σ₂ t.x112 t.dII E ≤ 1 := fun E => (ale2 _ d2.le E).trans (by linarith [pos2 t.dII E])
  have b3 : ∀ E, layerAbsorbed σ σ₆ t.x116 t.dIII E ≤ 1 := fun E => (ale6 _ d3.le E).trans (by linarith [pos6 t.dIII E])
  have b4 : ∀ E, layerAbsorbed σ σ₂ t.x112 t.dIV E ≤ 1 := fun E => (ale2 _ d4.le E).trans (by linarith [pos2 t.dIV E])
  have g2 : ∀ E, 0 < passing σ σ₆ t.x116 t.dI E * layerAbsorbed σ σ₂ t.x112 t.dII E := fun E => mul_pos (pos6 _ E) (apos2 _ d2 E)
  have g3 : ∀ E, 0 < passing σ σ₆ t.x116 t.dI E * passing σ σ₂ t.x112 t.dII E * layerAbsorbed σ σ₆ t.x116 t.dIII E := fun E =>
    mul_pos (mul_pos (pos6 _ E) (pos2 _ E)) (apos6 _ d3 E)
  have g4 : ∀ E, 0 < passing σ σ₆ t.x116 t.dI E * passing σ σ₂ t.x112 t.dII E * passing σ σ₆ t.x116 t.dIII E *
      layerAbsorbed σ σ₂ t.x112 t.dIV E := fun E => mul_pos (mul_pos (mul_pos (pos6 _ E) (pos2 _ E)) (pos6 _ E)) (apos2 _ d4 E)
  have l12 : ∀ E, passing σ σ₆ t.x116 t.dI E * passing σ σ₂ t.x112 t.dII E < 1 := fun E =>
    mul_lt_one_of_nonneg_of_lt_one_left (pos6 _ E).le (lt6 _ d1 E) (lt2 _ d2 E).le
  have l123 : ∀ E, passing σ σ₆ t.x116 t.dI E * passing σ σ₂ t.x112 t.dII E * passing σ σ₆ t.x116 t.dIII E < 1 := fun E =>
    mul_lt_one_of_nonneg_of_lt_one_left (mul_pos (pos6 _ E) (pos2 _ E)).le (l12 E) (lt6 _ d3 E).le
  have f2 : IntervalIntegrable (fun E => passing σ σ₆ t.x116 t.dI E * layerAbsorbed σ σ₂ t.x112 t.dII E) volume E₀ E₁ :=
    integrable_of_bounded hE.le ((m6 _).mul (n2 _)) (fun E => (g2 E).le)
      (fun E => mul_le_one₀ (lt6 _ d1 E).le (apos2 _ d2 E).le (b2 E))
  have f3 : IntervalIntegrable (fun E => passing σ σ₆ t.x116 t.dI E * passing σ σ₂ t.x112 t.dII E * layerAbsorbed σ σ₆ t.x116 t.dIII E)
      volume E₀ E₁ :=
    integrable_of_bounded hE.le (((m6 _).mul (m2 _)).mul (n6 _)) (fun E => (g3 E).le)
      (fun E => mul_le_one₀ (l12 E).le (apos6 _ d3 E).le (b3 E))
  have f4 : IntervalIntegrable (fun E => passing σ σ₆ t.x116 t.dI E * passing σ σ₂ t.x112 t.dII E * passing σ σ₆ t.x116 t.dIII E *
      layerAbsorbed σ σ₂ t.x112 t.dIV E) volume E₀ E₁ :=
    integrable_of_bounded hE.le ((((m6 _).mul (m2 _)).mul (m6 _)).mul (n2 _)) (fun E => (g4 E).le)
      (fun E => mul_le_one₀ (l123 E).le (apos2 _ d4 E).le (b4 E))
  refine ⟨fun hd => ?_, fun hd => ?_, ?_, ?_, ?_, ?_, ?_⟩
  · rw [e1, e3]
    refine intervalIntegral_lt hE f3 f1 fun E => ?_
    exact (mul_lt_of_lt_one_left (apos6 _ d3 E) (l12 E)).trans_le (am6 _ _ hd E)
  · rw [e2, e4]
    refine intervalIntegral_lt hE f4 f2 fun E => ?_
    have h1 : passing σ σ₂ t.x112 t.dII E * passing σ σ₆ t.x116 t.dIII E < 1 :=
      mul_lt_one_of_nonneg_of_lt_one_left (pos2 _ E).le (lt2 _ d2 E) (lt6 _ d3 E).le
    have h2 := (mul_lt_of_lt_one_left (apos2 _ d4 E) h1).trans_le (am2 _ _ hd E)
    have h3 := mul_lt_mul_of_pos_left h2 (pos6 t.dI E)
    linarith
  · rw [e3]; exact intervalIntegral.intervalIntegral_pos_of_pos_on f3 (fun E _ => g3 E) hE
  · rw [e4]; exact intervalIntegral.intervalIntegral_pos_of_pos_on f4 (fun E _ => g4 E) hE
  · rw [e1]; exact intervalIntegral.intervalIntegral_pos_of_pos_on f1 (fun E _ => apos6 _ d1 E) hE
  · rw [e2]; exact intervalIntegral.intervalIntegral_pos_of_pos_on f2 (fun E _ => g2 E) hE
  · rw [e1, e2, e3, e4, ← intervalIntegral.integral_add f1 f2, ← intervalIntegral.integral_add (f1.add f2) f3,
      ← intervalIntegral.integral_add ((f1.add f2).add f3) f4]
    have hl : ∀ E, passing σ σ₆ t.x116 t.dI E * passing σ σ₂ t.x112 t.dII E * passing σ σ₆ t.x116 t.dIII E *
        passing σ σ₂ t.x112 t.dIV E ≤ 1 := fun E => mul_le_one₀ (l123 E).le (pos2 _ E).le (lt2 _ d4 E).le
    have f5 : IntervalIntegrable (fun E => 1 - passing σ σ₆ t.x116 t.dI E * passing σ σ₂ t.x112 t.dII E *
        passing σ σ₆ t.x116 t.dIII E * passing σ σ₂ t.x112 t.dIV E) volume E₀ E₁ :=
      integrable_of_bounded hE.le (aestronglyMeasurable_const.sub ((((m6 _).mul (m2 _)).mul (m6 _)).mul (m2 _)))
        (fun E => sub_nonneg.2 (hl E))
        (fun E => by linarith [mul_pos (mul_pos (mul_pos (pos6 t.dI E) (pos2 t.dII E)) (pos6 t.dIII E)) (pos2 t.dIV E)])
    refine intervalIntegral.integral_mono_on hE.le (((f1.add f2).add f3).add f4) f5 fun E _ => ?_
    have k1 := ale6 _ d1.le E
    have k2 := mul_le_mul_of_nonneg_left (ale2 _ d2.le E) (pos6 t.dI E).le
    have k3 := mul_le_mul_of_nonneg_left (ale6 _ d3.le E) (mul_pos (pos6 t.dI E) (pos2 t.dII E)).le
    have k4 := mul_le_mul_of_nonneg_left (ale2 _ d4.le E) (mul_pos (mul_pos (pos6 t.dI E) (pos2 t.dII E)) (pos6 t.dIII E)).le
    linarith

/-- `σ` are the values of a cross section, at the energies from `E₀` to `E₁`. -/
def HasValuesOn (c : Callable) (σ : ℝ → ℝ) (E₀ E₁ : ℝ) : Prop := ∀ E ∈ Icc E₀ E₁, c E = .ok (σ E)

open Classical in
/-- a function restricted to a range, 1 outside -/
noncomputable def inside (E₀ E₁ : ℝ) (σ : ℝ → ℝ) (E : ℝ) : ℝ := if E ∈ Icc E₀ E₁ then σ E else 1

theorem inside_of {E₀ E₁ E : ℝ} (σ : ℝ → ℝ) (h : E ∈ Icc E₀ E₁) : inside E₀ E₁ σ E = σ E := if_pos h

theorem inside_pos {E₀ E₁ : ℝ} {σ : ℝ → ℝ} (h : ∀ E ∈ Icc E₀ E₁, 0 < σ E) (E : ℝ) : 0 < inside E₀ E₁ σ E := by
  unfold inside
  split_ifs with hE
  · exact h E hE
  · norm_num

theorem inside_nonneg {E₀ E₁ : ℝ} {σ : ℝ → ℝ} (h : ∀ E ∈ Icc E₀ E₁, 0 ≤ σ E) (E : ℝ) : 0 ≤ inside E₀ E₁ σ E := by
  unfold inside
  split_ifs with hE
  · exact h E hE
  · norm_num

theorem inside_integrable {E₀ E₁ : ℝ} {σ : ℝ → ℝ} (hE : E₀ ≤ E₁) (h : IntervalIntegrable σ volume E₀ E₁) :
    IntervalIntegrable (inside E₀ E₁ σ) volume E₀ E₁ := by
  refine h.congr fun E hE' => ?_
  rw [uIoc_of_le hE] at hE'
  exact (inside_of σ (Ioc_subset_Icc_self hE')).symm

theorem nquad2_congr {f g : ℝ → ℝ → Except Err ℝ} {a b c d : ℝ} (hab : a ≤ b) (h : ∀ E ∈ Icc a b, ∀ ρ, f E ρ = g E ρ) :
    nquad2 f a b c d = nquad2 g a b c d := by
  refine intervalIntegral.integral_congr fun ρ _ => intervalIntegral.integral_congr fun E hE => ?_
  rw [uIcc_of_le hab] at hE
  simp only [h E hE ρ]

/-- C144: the double integrals of the notebook are integrals over the energy only. For a single layer the rate is the integral of the
fraction of the photons absorbed resonantly. -/
theorem C144_single {nr r : Callable} {a b : ℝ → ℝ} {E₀ E₁ : ℝ} (ha : HasValuesOn nr a E₀ E₁) (hb : HasValuesOn r b E₀ E₁) {x : ℝ}
    (hx : 0 ≤ x) (ha0 : ∀ E ∈ Icc E₀ E₁, 0 ≤ a E) (hb0 : ∀ E ∈ Icc E₀ E₁, 0 ≤ b E) (hE : E₀ ≤ E₁)
    (hai : IntervalIntegrable a volume E₀ E₁) (hbi : IntervalIntegrable b volume E₀ E₁) {d : ℝ} (hd : 0 ≤ d) :
    countRate nr r x E₀ E₁ d = ∫ E in E₀..E₁, layerAbsorbed a b x d E := by
  have h := single_total (nr := fun E => .ok (inside E₀ E₁ a E)) (r := fun E => .ok (inside E₀ E₁ b E)) (fun _ => rfl) (fun _ => rfl) hx
    (inside_nonneg ha0) (inside_nonneg hb0) hE (inside_integrable hE hai) (inside_integrable hE hbi) hd
  have e1 : countRate nr r x E₀ E₁ d = countRate (fun E => .ok (inside E₀ E₁ a E)) (fun E => .ok (inside E₀ E₁ b E)) x E₀ E₁ d :=
    nquad2_congr hE fun E hE ρ => by simp [layerAlpha, layerPhi, ha E hE, hb E hE, inside_of _ hE]
  rw [e1, h]
  refine intervalIntegral.integral_congr fun E hE' => ?_
  rw [uIcc_of_le hE] at hE'
  simp only [layerAbsorbed, passing, inside_of _ hE']

/-- the hypotheses on a target of four layers and an energy range: in this range, the cross sections return numbers, those of the resonances
positive ones, and they are integrable -/
structure GoodTarget (t : LayerTarget) (σ σ₂ σ₆ : ℝ → ℝ) (E₀ E₁ : ℝ) : Prop where
  h0 : HasValuesOn t.nr σ E₀ E₁
  h2 : HasValuesOn t.s112 σ₂ E₀ E₁
  h6 : HasValuesOn t.s116 σ₆ E₀ E₁
  d1 : 0 < t.dI
  d2 : 0 < t.dII
  d3 : 0 < t.dIII
  d4 : 0 < t.dIV
  x2 : 0 < t.x112
  x6 : 0 < t.x116
  p0 : ∀ E ∈ Icc E₀ E₁, 0 ≤ σ E
  p2 : ∀ E ∈ Icc E₀ E₁, 0 < σ₂ E
  p6 : ∀ E ∈ Icc E₀ E₁, 0 < σ₆ E
  hE : E₀ < E₁
  i0 : IntervalIntegrable σ volume E₀ E₁
  i2 : IntervalIntegrable σ₂ volume E₀ E₁
  i6 : IntervalIntegrable σ₆ volume E₀ E₁

/-- the same target with cross sections that have values outside of the range, too -/
noncomputable def LayerTarget.total (t : LayerTarget) (σ σ₂ σ₆ : ℝ → ℝ) (E₀ E₁ : ℝ) : LayerTarget :=
  { t with nr := fun E => .ok (inside E₀ E₁ σ E), s112 := fun E => .ok (inside E₀ E₁ σ₂ E), s116 := fun E => .ok (inside E₀ E₁ σ₆ E) }

theorem GoodTarget.total {t : LayerTarget} {σ σ₂ σ₆ : ℝ → ℝ} {E₀ E₁ : ℝ} (h : GoodTarget t σ σ₂ σ₆ E₀ E₁) :
    TotalTarget (t.total σ σ₂ σ₆ E₀ E₁) (inside E₀ E₁ σ) (inside E₀ E₁ σ₂) (inside E₀ E₁ σ₆) E₀ E₁ where
  h0 _ := rfl
  h2 _ := rfl
  h6 _ := rfl
  d1 := h.d1
  d2 := h.d2
  d3 := h.d3
  d4 := h.d4
  x2 := h.x2
  x6 := h.x6
  p0 := inside_nonneg h.p0
  p2 := inside_pos h.p2
  p6 := inside_pos h.p6
  hE := h.hE
  i0 := inside_integrable h.hE.le h.i0
  i2 := inside_integrable h.hE.le h.i2
  i6 := inside_integrable h.hE.le h.i6

theorem GoodTarget.rates {t : LayerTarget} {σ σ₂ σ₆ : ℝ → ℝ} {E₀ E₁ : ℝ} (h : GoodTarget t σ σ₂ σ₆ E₀ E₁) :
    t.rateI E₀ E₁ = (t.total σ σ₂ σ₆ E₀ E₁).rateI E₀ E₁ ∧ t.rateII E₀ E₁ = (t.total σ σ₂ σ₆ E₀ E₁).rateII E₀ E₁ ∧
    t.rateIII E₀ E₁ = (t.total σ σ₂ σ₆ E₀ E₁).rateIII E₀ E₁ ∧ t.rateIV E₀ E₁ = (t.total σ σ₂ σ₆ E₀ E₁).rateIV E₀ E₁ := by
  refine ⟨?_, ?_, ?_, ?_⟩
  · exact nquad2_congr h.hE.le fun E hE ρ => by
      simp [LayerTarget.dNI, layerAlpha, layerPhi, h.h0 E hE, h.h6 E hE, LayerTarget.total, inside_of _ hE, LayerTarget.rho0]
  · exact nquad2_congr h.hE.le fun E hE ρ => by
      simp [LayerTarget.dNII, layerAlpha, layerPhi, h.h0 E hE, h.h6 E hE, h.h2 E hE, LayerTarget.total, inside_of _ hE,
        LayerTarget.rho0, LayerTarget.rhoI]
  · exact nquad2_congr h.hE.le fun E hE ρ => by
      simp [LayerTarget.dNIII, layerAlpha, layerPhi, h.h0 E hE, h.h6 E hE, h.h2 E hE, LayerTarget.total, inside_of _ hE,
        LayerTarget.rho0, LayerTarget.rhoI, LayerTarget.rhoII]
  · exact nquad2_congr h.hE.le fun E hE ρ => by
      simp [LayerTarget.dNIV, layerAlpha, layerPhi, h.h0 E hE, h.h6 E hE, h.h2 E hE, LayerTarget.total, inside_of _ hE,
        LayerTarget.rho0, LayerTarget.rhoI, LayerTarget.rhoII, LayerTarget.rhoIII]

/-- C144: in the layers of the composite target the rates are the integrals of the fraction absorbed resonantly in this layer times the
fractions that pass the layers in front of it. -/
theorem C144_layers (t : LayerTarget) {σ σ₂ σ₆ : ℝ → ℝ} {E₀ E₁ : ℝ} (h : GoodTarget t σ σ₂ σ₆ E₀ E₁) :
    t.rateI E₀ E₁ = (∫ E in E₀..E₁, layerAbsorbed σ σ₆ t.x116 t.dI E) ∧
    t.rateII E₀ E₁ = (∫ E in E₀..E₁, passing σ σ₆ t.x116 t.dI E * layerAbsorbed σ σ₂ t.x112 t.dII E) ∧
    t.rateIII E₀ E₁ = (∫ E in E₀..E₁, passing σ σ₆ t.x116 t.dI E * passing σ σ₂ t.x112 t.dII E * layerAbsorbed σ σ₆ t.x116 t.dIII E) ∧
    t.rateIV E₀ E₁ = (∫ E in E₀..E₁, passing σ σ₆ t.x116 t.dI E * passing σ σ₂ t.x112 t.dII E * passing σ σ₆ t.x116 t.dIII E *
      layerAbsorbed σ σ₂ t.x112 t.dIV E) := by
  have k := h.total
  obtain ⟨r1, r2, r3, r4⟩ := h.rates
  obtain ⟨e1, e2, e3, e4⟩ := layers_total _ k.h0 k.h2 k.h6 k.d1.le k.d2.le k.d3.le k.d4.le k.x2.le k.x6.le k.p0
    (fun E => (k.p2 E).le) (fun E => (k.p6 E).le) k.hE.le k.i0 k.i2 k.i6
  rw [r1, r2, r3, r4, e1, e2, e3, e4]
  refine ⟨?_, ?_, ?_, ?_⟩ <;>
  · refine intervalIntegral.integral_congr fun E hE => ?_
    rw [uIcc_of_le h.hE.le] at hE
    simp only [layerAbsorbed, passing, inside_of _ hE, LayerTarget.total]

/-- C144: a layer in the shadow of others sees fewer reactions: the third layer, if it is not thicker than the first, has a smaller rate
than the first, and the fourth, if it is not thicker than the second, a smaller rate than the second. All rates are positive, and all four
together, in the same range of energies, do not exceed the number of photons that do not pass the target. -/
theorem C144_shadow (t : LayerTarget) {σ σ₂ σ₆ : ℝ → ℝ} {E₀ E₁ : ℝ} (h : GoodTarget t σ σ₂ σ₆ E₀ E₁) :
    (t.dIII ≤ t.dI → t.rateIII E₀ E₁ < t.rateI E₀ E₁) ∧ (t.dIV ≤ t.dII → t.rateIV E₀ E₁ < t.rateII E₀ E₁) ∧
    0 < t.rateIII E₀ E₁ ∧ 0 < t.rateIV E₀ E₁ ∧ 0 < t.rateI E₀ E₁ ∧ 0 < t.rateII E₀ E₁ ∧
    t.rateI E₀ E₁ + t.rateII E₀ E₁ + t.rateIII E₀ E₁ + t.rateIV E₀ E₁ ≤ ∫ E in E₀..E₁, 1 -
      passing σ σ₆ t.x116 t.dI E * passing σ σ₂ t.x112 t.dII E * passing σ σ₆ t.x116 t.dIII E * passing σ σ₂ t.x112 t.dIV E := by
  obtain ⟨k1, k2, k3, k4, k5, k6, k7⟩ := shadow_total _ h.total
  obtain ⟨r1, r2, r3, r4⟩ := h.rates
  rw [r1, r2, r3, r4]
  refine ⟨k1, k2, k3, k4, k5, k6, k7.trans_eq ?_⟩
  refine intervalIntegral.integral_congr fun E hE => ?_
  rw [uIcc_of_le h.hE.le] at hE
  simp only [passing, inside_of _ hE, LayerTarget.total]

/-- Continuous positive cross sections meet the hypotheses. -/
example : GoodTarget ⟨fun _ => .ok 1, fun _ => .ok 2, fun E => .ok (1 + E ^ 2), 0.951, 0.978, 1, 2, 1, 2⟩ (fun _ => 1) (fun _ => 2)
    (fun E => 1 + E ^ 2) 0 1 where
  h0 _ _ := rfl
  h2 _ _ := rfl
  h6 _ _ := rfl
  d1 := by norm_num
  d2 := by norm_num
  d3 := by norm_num
  d4 := by norm_num
  x2 := by norm_num
  x6 := by norm_num
  p0 _ _ := by norm_num
  p2 _ _ := by norm_num
  p6 E _ := by positivity
  hE := by norm_num
  i0 := Continuous.intervalIntegrable (by fun_prop) _ _
  i2 := Continuous.intervalIntegrable (by fun_prop) _ _
  i6 := Continuous.intervalIntegrable (by fun_prop) _ _

/-! ## C145 -/

/-- C145: the width is that of the half life: a population that decays with the rate `Γ / ħ` (both in eV s units) is half of what it was
after every half life. -/
theorem C145_half_life {hbar T : ℝ} (hh : 0 < hbar) (hT : 0 < T) (t : ℝ) :
    0 < halfLifeWidth hbar T ∧
    Real.exp (-(halfLifeWidth hbar T * 1e6 / hbar * (t + T))) = Real.exp (-(halfLifeWidth hbar T * 1e6 / hbar * t)) / 2 ∧
    halfLifeWidth hbar (2 * T) = halfLifeWidth hbar T / 2 := by
  have hl : 0 < Real.log 2 := Real.log_pos (by norm_num)
  have e : halfLifeWidth hbar T * 1e6 / hbar = Real.log 2 / T := by
    unfold halfLifeWidth; field_simp; norm_num
  refine ⟨by unfold halfLifeWidth; positivity, ?_, by unfold halfLifeWidth; field_simp⟩
  rw [e]
  have h1 : -(Real.log 2 / T * (t + T)) = -(Real.log 2 / T * t) + -Real.log 2 := by field_simp; ring
  rw [h1, Real.exp_add, Real.exp_neg (Real.log 2), Real.exp_log (by norm_num)]
  ring

example : (0 : ℝ) < 6.582119569e-16 ∧ (0 : ℝ) < 0.376e-12 := by norm_num

/-- C145: the areal density times the area of the layer (a disc with a radius of 5 mm, in fm^2) times the mass of one nucleus is the mass of
the layer. -/
theorem C145_areal_density {mass amu u : ℝ} (ha : 0 < amu) (hu : 0 < u) :
    layerArealDensity mass amu u * (Real.pi * (0.005 * 1e15) ^ 2) * (amu * u) = mass := by
  have := Real.pi_pos
  unfold layerArealDensity
  have h : (0.005e15 : ℝ) = 0.005 * 1e15 := by norm_num
  rw [h]
  field_simp

example : (0 : ℝ) < 111.904824877 ∧ (0 : ℝ) < 1.66053906660e-27 := by norm_num

end Ries
