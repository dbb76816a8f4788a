import Verif.Model.Notebooks
import Mathlib.Analysis.Calculus.MeanValue
import Mathlib.Analysis.SpecialFunctions.ExpDeriv
import Mathlib.MeasureTheory.Integral.IntervalIntegral.FundThmCalculus
import Mathlib.Analysis.SpecialFunctions.Integrals.Basic

/-! # Properties C102-C104: photon flux and reaction rates in a layered target -/

open MeasureTheory Set

namespace Ries

/-- `σ` are the values of a cross section, at all energies. -/
def HasValues (c : Callable) (σ : ℝ → ℝ) : Prop := ∀ E, c E = .ok (σ E)

/-- The attenuation law (differential equation of the notebook) with the absorption `c` per areal density between the
depths `a` and `b`: `dF/dρ = - c F`. -/
def Attenuates (c a b : ℝ) (F : ℝ → ℝ) : Prop := ContinuousOn F (Icc a b) ∧ ∀ ρ ∈ Ioo a b, HasDerivAt F (-c * F ρ) ρ

theorem Attenuates.eq {c a b : ℝ} {F : ℝ → ℝ} (h : Attenuates c a b F) {ρ : ℝ} (hρ : ρ ∈ Icc a b) :
    F ρ = F a * Real.exp (-c * (ρ - a)) := by
  rcases hρ.1.eq_or_lt with rfl | hlt
  · simp
  have hd : ∀ x ∈ Ioo a ρ, HasDerivAt (fun x => F x * Real.exp (c * x)) 0 x := by
    intro x hx
    have h1 := h.2 x ⟨hx.1, hx.2.trans_le hρ.2⟩
    have h2 : HasDerivAt (fun x => Real.exp (c * x)) (Real.exp (c * x) * c) x := by
      simpa using ((hasDerivAt_id x).const_mul c).exp
    exact (h1.mul h2).congr_deriv (by ring)
  have hc : ContinuousOn (fun x => F x * Real.exp (c * x)) (Icc a ρ) :=
    (h.1.mono (Icc_subset_Icc_right hρ.2)).mul (by fun_prop)
  obtain ⟨ξ, -, e⟩ := exists_hasDerivAt_eq_slope (fun x => F x * Real.exp (c * x)) (fun _ => 0) hlt hc hd
  have hne : ρ - a ≠ 0 := by linarith
  have e' : F ρ * Real.exp (c * ρ) = F a * Real.exp (c * a) := by
    field_simp at e
    linarith
  have : F ρ = F a * Real.exp (c * a) * Real.exp (-(c * ρ)) := by
    rw [← e', mul_assoc, ← Real.exp_add]; simp
  rw [this, mul_assoc, ← Real.exp_add]
  congr 2
  ring

theorem layerPhi_ok {nr r : Callable} {a b : ℝ → ℝ} (ha : HasValues nr a) (hb : HasValues r b) (E rho x : ℝ) :
    layerPhi E rho nr r x = .ok (Real.exp (-(a E + x * b E) * rho)) := by
  simp [layerPhi, ha E, hb E, Bind.bind, Except.bind]

theorem layerAlpha_ok {nr r : Callable} {a b : ℝ → ℝ} (ha : HasValues nr a) (hb : HasValues r b) (E rho x : ℝ) :
    layerAlpha E rho nr r x = .ok (x * b E * Real.exp (-(a E + x * b E) * rho)) := by
  simp [layerAlpha, layerPhi_ok ha hb, hb E, Bind.bind, Except.bind]

/-! ## C102 -/

/-- C102: the photon-flux density is 1 at the surface, between 0 and 1 everywhere, falls with the depth (strictly where
something is absorbed), and factorizes: behind two pieces of the same material it is the product. -/
theorem C102_flux {nr r : Callable} {a b : ℝ → ℝ} (ha : HasValues nr a) (hb : HasValues r b) {x : ℝ} (hx : 0 ≤ x)
    (ha0 : ∀ E, 0 ≤ a E) (hb0 : ∀ E, 0 ≤ b E) (E : ℝ) : ∃ Φ : ℝ → ℝ, (∀ ρ, layerPhi E ρ nr r x = .ok (Φ ρ)) ∧ Φ 0 = 1 ∧
      (∀ ρ, 0 < Φ ρ) ∧ (∀ ρ, 0 ≤ ρ → Φ ρ ≤ 1) ∧ Antitone Φ ∧ (0 < a E + x * b E → StrictAnti Φ) ∧
      ∀ ρ ρ', Φ (ρ + ρ') = Φ ρ * Φ ρ' := by
  have hc : 0 ≤ a E + x * b E := add_nonneg (ha0 E) (mul_nonneg hx (hb0 E))
  refine ⟨_, fun ρ => layerPhi_ok ha hb E ρ x, by simp, fun ρ => Real.exp_pos _, fun ρ hρ => ?_, fun ρ ρ' h => ?_, fun hp ρ ρ' h => ?_,
    fun ρ ρ' => ?_⟩
  · rw [Real.exp_le_one_iff]
    nlinarith
  · refine Real.exp_le_exp.2 ?_
    nlinarith
  · refine Real.exp_lt_exp.2 ?_
    nlinarith
  · rw [← Real.exp_add]; congr 1; ring

/-- C102: the rates in the four layers are those of a beam that obeys the attenuation law: if `F` is the solution of the
differential equation that starts with 1 and is continuous at the boundaries, then the rate at each depth of each layer is the cross
section of the isotope of this layer times its abundance times `F`. -/
theorem C102_layers (t : LayerTarget) {σ σ₂ σ₆ : ℝ → ℝ} (h0 : HasValues t.nr σ) (h2 : HasValues t.s112 σ₂)
    (h6 : HasValues t.s116 σ₆) (d1 : 0 ≤ t.dI) (d2 : 0 ≤ t.dII) (d3 : 0 ≤ t.dIII) (E : ℝ) {F : ℝ → ℝ}
    (hF : F 0 = 1) (f1 : Attenuates (σ E + t.x116 * σ₆ E) 0 t.rhoI F) (f2 : Attenuates (σ E + t.x112 * σ₂ E) t.rhoI t.rhoII F)
    (f3 : Attenuates (σ E + t.x116 * σ₆ E) t.rhoII t.rhoIII F) (f4 : Attenuates (σ E + t.x112 * σ₂ E) t.rhoIII t.rhoIV F) :
    (∀ ρ ∈ Icc 0 t.rhoI, t.dNI E ρ = .ok (t.x116 * σ₆ E * F ρ)) ∧
    (∀ ρ ∈ Icc t.rhoI t.rhoII, t.dNII E ρ = .ok (t.x112 * σ₂ E * F ρ)) ∧
    (∀ ρ ∈ Icc t.rhoII t.rhoIII, t.dNIII E ρ = .ok (t.x116 * σ₆ E * F ρ)) ∧
    (∀ ρ ∈ Icc t.rhoIII t.rhoIV, t.dNIV E ρ = .ok (t.x112 * σ₂ E * F ρ)) := by
  have r0 : t.rho0 = 0 := rfl
  have e1 : F t.rhoI = Real.exp (-(σ E + t.x116 * σ₆ E) * (t.rhoI - t.rho0)) := by
    rw [f1.eq ⟨by simp [LayerTarget.rhoI, LayerTarget.rho0, d1], le_rfl⟩, hF, one_mul, r0]
  have e2 : F t.rhoII = F t.rhoI * Real.exp (-(σ E + t.x112 * σ₂ E) * (t.rhoII - t.rhoI)) :=
    f2.eq ⟨by simp [LayerTarget.rhoII, d2], le_rfl⟩
  have e3 : F t.rhoIII = F t.rhoII * Real.exp (-(σ E + t.x116 * σ₆ E) * (t.rhoIII - t.rhoII)) :=
    f3.eq ⟨by simp [LayerTarget.rhoIII, d3], le_rfl⟩
  refine ⟨fun ρ hρ => ?_, fun ρ hρ => ?_, fun ρ hρ => ?_, fun ρ hρ => ?_⟩
  · rw [LayerTarget.dNI, layerAlpha_ok h0 h6, f1.eq hρ, hF, r0, one_mul]
  · simp only [LayerTarget.dNII, layerPhi_ok h0 h6, layerAlpha_ok h0 h2, Bind.bind, Except.bind, Except.ok.injEq]
    rw [f2.eq hρ, e1]; ring
  · simp only [LayerTarget.dNIII, layerPhi_ok h0 h6, layerPhi_ok h0 h2, layerAlpha_ok h0 h6, Bind.bind, Except.bind, Except.ok.injEq]
    rw [f3.eq hρ, e2, e1]; ring
  · simp only [LayerTarget.dNIV, layerPhi_ok h0 h6, layerPhi_ok h0 h2, layerAlpha_ok h0 h2, Bind.bind, Except.bind, Except.ok.injEq]
    rw [f4.eq hρ, e3, e2, e1]; ring

theorem attenuates_clamp {c a b k : ℝ} {G : ℝ → ℝ} (hG : Continuous G) (hk : ∀ ρ ∈ Ioo a b, G ρ = k + c * (ρ - a)) :
    Attenuates c a b fun ρ => Real.exp (-G ρ) := by
  refine ⟨(Real.continuous_exp.comp hG.neg).continuousOn, fun ρ hρ => ?_⟩
  have h1 : HasDerivAt (fun ρ => Real.exp (-(k + c * (ρ - a)))) (Real.exp (-(k + c * (ρ - a))) * (-(c * 1))) ρ :=
    (((((hasDerivAt_id ρ).sub_const a).const_mul c).const_add k).neg).exp
  have h2 : (fun ρ => Real.exp (-G ρ)) =ᶠ[nhds ρ] fun ρ => Real.exp (-(k + c * (ρ - a))) := by
    filter_upwards [Ioo_mem_nhds hρ.1 hρ.2] with x hx
    rw [hk x hx]
  exact (h1.congr_of_eventuallyEq h2).congr_deriv (by beta_reduce; rw [hk ρ hρ]; ring)

/-- thickness of the part of the layer from `a` to `b` that lies above the depth `ρ` -/
noncomputable def crossed (a b ρ : ℝ) : ℝ := max a (min ρ b) - a

theorem crossed_of_ge {a b ρ : ℝ} (hab : a ≤ b) (h : b ≤ ρ) : crossed a b ρ = b - a := by
  simp [crossed, min_eq_right h, max_eq_right hab]

theorem crossed_of_le {a b ρ : ℝ} (h : ρ ≤ a) : crossed a b ρ = 0 := by
  simp [crossed, max_eq_left ((min_le_left ρ b).trans h)]

theorem crossed_of_mem {a b ρ : ℝ} (h : ρ ∈ Ioo a b) : crossed a b ρ = ρ - a := by
  simp [crossed, min_eq_left h.2.le, max_eq_right h.1.le]

/-- C102: the beam exists: for all absorptions and thicknesses of four layers the attenuation law has a solution. -/
theorem C102_flux_exists {c₁ c₂ c₃ c₄ r₁ r₂ r₃ r₄ : ℝ} (h1 : 0 ≤ r₁) (h2 : r₁ ≤ r₂) (h3 : r₂ ≤ r₃) (_h4 : r₃ ≤ r₄) :
    ∃ F : ℝ → ℝ, F 0 = 1 ∧ Attenuates c₁ 0 r₁ F ∧ Attenuates c₂ r₁ r₂ F ∧ Attenuates c₃ r₂ r₃ F ∧ Attenuates c₄ r₃ r₄ F := by
  have hcont : ∀ a b : ℝ, Continuous (crossed a b) := by intro a b; unfold crossed; fun_prop
  have hG : Continuous fun ρ => c₁ * crossed 0 r₁ ρ + c₂ * crossed r₁ r₂ ρ + c₃ * crossed r₂ r₃ ρ + c₄ * crossed r₃ r₄ ρ := by
    have := hcont 0 r₁
    have := hcont r₁ r₂
    have := hcont r₂ r₃
    have := hcont r₃ r₄
    fun_prop
  refine ⟨fun ρ => Real.exp (-(c₁ * crossed 0 r₁ ρ + c₂ * crossed r₁ r₂ ρ + c₃ * crossed r₂ r₃ ρ + c₄ * crossed r₃ r₄ ρ)), ?_,
    attenuates_clamp (k := 0) hG fun ρ hρ => ?_, attenuates_clamp (k := c₁ * r₁) hG fun ρ hρ => ?_,
    attenuates_clamp (k := c₁ * r₁ + c₂ * (r₂ - r₁)) hG fun ρ hρ => ?_,
    attenuates_clamp (k := c₁ * r₁ + c₂ * (r₂ - r₁) + c₃ * (r₃ - r₂)) hG fun ρ hρ => ?_⟩
  · simp [crossed_of_le (show (0 : ℝ) ≤ 0 from le_rfl), crossed_of_le h1, crossed_of_le (h1.trans h2),
      crossed_of_le ((h1.trans h2).trans h3)]
  · rw [crossed_of_mem hρ, crossed_of_le hρ.2.le, crossed_of_le (hρ.2.le.trans h2), crossed_of_le ((hρ.2.le.trans h2).trans h3)]
    ring
  · rw [crossed_of_ge h1 hρ.1.le, crossed_of_mem hρ, crossed_of_le hρ.2.le, crossed_of_le (hρ.2.le.trans h3)]
    ring
  · rw [crossed_of_ge h1 (h2.trans hρ.1.le), crossed_of_ge h2 hρ.1.le, crossed_of_mem hρ, crossed_of_le hρ.2.le]
    ring
  · rw [crossed_of_ge h1 ((h2.trans h3).trans hρ.1.le), crossed_of_ge h2 (h3.trans hρ.1.le), crossed_of_ge h3 hρ.1.le,
      crossed_of_mem hρ]
    ring

/-! ## C103 -/

theorem Attenuates.integral {s x c a b : ℝ} {F : ℝ → ℝ} (h : Attenuates c a b F) (hab : a ≤ b) (hc : c = s + x) :
    (∫ ρ in a..b, x * F ρ) + (∫ ρ in a..b, s * F ρ) = F a - F b := by
  have hi : IntervalIntegrable F volume a b := by
    refine ContinuousOn.intervalIntegrable ?_
    rw [uIcc_of_le hab]; exact h.1
  rw [← intervalIntegral.integral_add (hi.const_mul x) (hi.const_mul s)]
  have e : (∫ ρ in a..b, x * F ρ + s * F ρ) = ∫ ρ in a..b, c * F a * Real.exp (-c * (ρ - a)) := by
    refine intervalIntegral.integral_congr fun ρ hρ => ?_
    rw [uIcc_of_le hab] at hρ
    simp only [h.eq hρ, hc]; ring
  rw [e, intervalIntegral.integral_eq_sub_of_hasDerivAt (f := fun ρ => -(F a * Real.exp (-c * (ρ - a))))]
  · rw [h.eq ⟨hab, le_rfl⟩]; simp; ring
  · intro ρ _
    have h1 : HasDerivAt (fun ρ => Real.exp (-c * (ρ - a))) (Real.exp (-c * (ρ - a)) * (-c * 1)) ρ :=
      (((hasDerivAt_id ρ).sub_const a).const_mul (-c)).exp
    exact (h1.const_mul (F a)).neg.congr_deriv (by ring)
  · exact Continuous.intervalIntegrable (by fun_prop) _ _

/-- C103: balance of the photons at each energy. What the resonances absorb in the four layers, according to the four functions of the
notebook, plus what is lost nonresonantly, is what does not leave the target. -/
theorem C103_balance (t : LayerTarget) {σ σ₂ σ₆ : ℝ → ℝ} (h0 : HasValues t.nr σ) (h2 : HasValues t.s112 σ₂)
    (h6 : HasValues t.s116 σ₆) (d1 : 0 ≤ t.dI) (d2 : 0 ≤ t.dII) (d3 : 0 ≤ t.dIII) (d4 : 0 ≤ t.dIV) (E : ℝ) {F : ℝ → ℝ}
    (hF : F 0 = 1) (f1 : Attenuates (σ E + t.x116 * σ₆ E) 0 t.rhoI F) (f2 : Attenuates (σ E + t.x112 * σ₂ E) t.rhoI t.rhoII F)
    (f3 : Attenuates (σ E + t.x116 * σ₆ E) t.rhoII t.rhoIII F) (f4 : Attenuates (σ E + t.x112 * σ₂ E) t.rhoIII t.rhoIV F) :
    (∫ ρ in (0 : ℝ)..t.rhoI, valueOf (t.dNI E ρ)) + (∫ ρ in t.rhoI..t.rhoII, valueOf (t.dNII E ρ)) +
      (∫ ρ in t.rhoII..t.rhoIII, valueOf (t.dNIII E ρ)) + (∫ ρ in t.rhoIII..t.rhoIV, valueOf (t.dNIV E ρ)) +
      (∫ ρ in (0 : ℝ)..t.rhoIV, σ E * F ρ) = 1 - F t.rhoIV := by
  obtain ⟨k1, k2, k3, k4⟩ := C102_layers t h0 h2 h6 d1 d2 d3 E hF f1 f2 f3 f4
  have o1 : 0 ≤ t.rhoI := by simp [LayerTarget.rhoI, LayerTarget.rho0, d1]
  have o2 : t.rhoI ≤ t.rhoII := by simp [LayerTarget.rhoII, d2]
  have o3 : t.rhoII ≤ t.rhoIII := by simp [LayerTarget.rhoIII, d3]
  have o4 : t.rhoIII ≤ t.rhoIV := by simp [LayerTarget.rhoIV, d4]
  have cong : ∀ {a b c : ℝ} {f : ℝ → Except Err ℝ}, a ≤ b → (∀ ρ ∈ Icc a b, f ρ = .ok (c * F ρ)) →
      ∫ ρ in a..b, valueOf (f ρ) = ∫ ρ in a..b, c * F ρ := by
    intro a b c f hab h
    refine intervalIntegral.integral_congr fun ρ hρ => ?_
    rw [uIcc_of_le hab] at hρ
    simp only [h ρ hρ, valueOf]
  rw [cong o1 k1, cong o2 k2, cong o3 k3, cong o4 k4]
  have ii : ∀ {c a b : ℝ}, a ≤ b → Attenuates c a b F → IntervalIntegrable (fun ρ => σ E * F ρ) volume a b := by
    intro c a b hab h
    refine ContinuousOn.intervalIntegrable ?_
    rw [uIcc_of_le hab]; exact h.1.const_mul _
  have i1 := ii o1 f1
  have i2 := ii o2 f2
  have i3 := ii o3 f3
  have i4 := ii o4 f4
  rw [← intervalIntegral.integral_add_adjacent_intervals ((i1.trans i2).trans i3) i4,
    ← intervalIntegral.integral_add_adjacent_intervals (i1.trans i2) i3,
    ← intervalIntegral.integral_add_adjacent_intervals i1 i2]
  have s1 := f1.integral o1 rfl
  have s2 := f2.integral o2 rfl
  have s3 := f3.integral o3 rfl
  have s4 := f4.integral o4 rfl
  linarith

/-- C103: no photon is absorbed twice: for nonnegative cross sections the resonances in the four layers together absorb between 0 and
1 minus the transmitted fraction; exactly that if there are no other losses. -/
theorem C103_bounds (t : LayerTarget) {σ σ₂ σ₆ : ℝ → ℝ} (h0 : HasValues t.nr σ) (h2 : HasValues t.s112 σ₂)
    (h6 : HasValues t.s116 σ₆) (d1 : 0 ≤ t.dI) (d2 : 0 ≤ t.dII) (d3 : 0 ≤ t.dIII) (d4 : 0 ≤ t.dIV)
    (x2 : 0 ≤ t.x112) (x6 : 0 ≤ t.x116) (E : ℝ) (p0 : 0 ≤ σ E) (p2 : 0 ≤ σ₂ E) (p6 : 0 ≤ σ₆ E) :
    ∃ out, 0 < out ∧ out ≤ 1 ∧
      0 ≤ (∫ ρ in (0 : ℝ)..t.rhoI, valueOf (t.dNI E ρ)) + (∫ ρ in t.rhoI..t.rhoII, valueOf (t.dNII E ρ)) +
        (∫ ρ in t.rhoII..t.rhoIII, valueOf (t.dNIII E ρ)) + (∫ ρ in t.rhoIII..t.rhoIV, valueOf (t.dNIV E ρ)) ∧
      (∫ ρ in (0 : ℝ)..t.rhoI, valueOf (t.dNI E ρ)) + (∫ ρ in t.rhoI..t.rhoII, valueOf (t.dNII E ρ)) +
        (∫ ρ in t.rhoII..t.rhoIII, valueOf (t.dNIII E ρ)) + (∫ ρ in t.rhoIII..t.rhoIV, valueOf (t.dNIV E ρ)) ≤ 1 - out ∧
      (σ E = 0 → (∫ ρ in (0 : ℝ)..t.rhoI, valueOf (t.dNI E ρ)) + (∫ ρ in t.rhoI..t.rhoII, valueOf (t.dNII E ρ)) +
        (∫ ρ in t.rhoII..t.rhoIII, valueOf (t.dNIII E ρ)) + (∫ ρ in t.rhoIII..t.rhoIV, valueOf (t.dNIV E ρ)) = 1 - out) := by
  have o1 : 0 ≤ t.rhoI := by simp [LayerTarget.rhoI, LayerTarget.rho0, d1]
  have o2 : t.rhoI ≤ t.rhoII := by simp [LayerTarget.rhoII, d2]
  have o3 : t.rhoII ≤ t.rhoIII := by simp [LayerTarget.rhoIII, d3]
  have o4 : t.rhoIII ≤ t.rhoIV := by simp [LayerTarget.rhoIV, d4]
  have q2 := mul_nonneg x2 p2
  have q6 := mul_nonneg x6 p6
  obtain ⟨F, hF, f1, f2, f3, f4⟩ := C102_flux_exists (c₁ := σ E + t.x116 * σ₆ E) (c₂ := σ E + t.x112 * σ₂ E)
    (c₃ := σ E + t.x116 * σ₆ E) (c₄ := σ E + t.x112 * σ₂ E) o1 o2 o3 o4
  have hb := C103_balance t h0 h2 h6 d1 d2 d3 d4 E hF f1 f2 f3 f4
  obtain ⟨k1, k2, k3, k4⟩ := C102_layers t h0 h2 h6 d1 d2 d3 E hF f1 f2 f3 f4
  have step : ∀ {c a b : ℝ}, 0 ≤ c → a ≤ b → Attenuates c a b F → 0 < F a → F b ≤ F a ∧ ∀ ρ ∈ Icc a b, 0 < F ρ := by
    intro c a b hc hab h hp
    refine ⟨?_, fun ρ hρ => by rw [h.eq hρ]; positivity⟩
    rw [h.eq ⟨hab, le_rfl⟩]
    refine mul_le_of_le_one_right hp.le (Real.exp_le_one_iff.2 ?_)
    nlinarith
  obtain ⟨l1, w1⟩ := step (add_nonneg p0 q6) o1 f1 (by rw [hF]; norm_num)
  obtain ⟨l2, w2⟩ := step (add_nonneg p0 q2) o2 f2 (w1 _ ⟨o1, le_rfl⟩)
  obtain ⟨l3, w3⟩ := step (add_nonneg p0 q6) o3 f3 (w2 _ ⟨o2, le_rfl⟩)
  obtain ⟨l4, w4⟩ := step (add_nonneg p0 q2) o4 f4 (w3 _ ⟨o3, le_rfl⟩)
  have nn : ∀ {a b c : ℝ} {f : ℝ → Except Err ℝ}, a ≤ b → 0 ≤ c → (∀ ρ ∈ Icc a b, 0 < F ρ) →
      (∀ ρ ∈ Icc a b, f ρ = .ok (c * F ρ)) → 0 ≤ ∫ ρ in a..b, valueOf (f ρ) := by
    intro a b c f hab hc hw h
    refine intervalIntegral.integral_nonneg hab fun ρ hρ => ?_
    rw [h ρ hρ]
    exact mul_nonneg hc (hw ρ hρ).le
  have n1 := nn o1 q6 w1 k1
  have n2 := nn o2 q2 w2 k2
  have n3 := nn o3 q6 w3 k3
  have n4 := nn o4 q2 w4 k4
  have hpos : ∀ ρ ∈ Icc 0 t.rhoIV, 0 < F ρ := by
    intro ρ hρ
    rcases le_total ρ t.rhoI with h | h
    · exact w1 ρ ⟨hρ.1, h⟩
    rcases le_total ρ t.rhoII with h' | h'
    · exact w2 ρ ⟨h, h'⟩
    rcases le_total ρ t.rhoIII with h'' | h''
    · exact w3 ρ ⟨h', h''⟩
    · exact w4 ρ ⟨h'', hρ.2⟩
  have m : 0 ≤ ∫ ρ in (0 : ℝ)..t.rhoIV, σ E * F ρ :=
    intervalIntegral.integral_nonneg (o1.trans (o2.trans (o3.trans o4))) fun ρ hρ => mul_nonneg p0 (hpos ρ hρ).le
  refine ⟨F t.rhoIV, w4 _ ⟨o4, le_rfl⟩, by linarith, by linarith, by linarith, fun hz => ?_⟩
  rw [← hb, hz]
  simp

/-- a target of four layers with constant cross sections -/
noncomputable def exTarget : LayerTarget :=
  ⟨fun _ => .ok 1, fun _ => .ok 2, fun E => .ok (E ^ 2), 0.951, 0.978, 1, 2, 3, 4⟩

example : HasValues exTarget.nr (fun _ => 1) ∧ HasValues exTarget.s112 (fun _ => 2) ∧ HasValues exTarget.s116 (fun E => E ^ 2) ∧
    0 ≤ exTarget.dI ∧ 0 ≤ exTarget.dIV ∧ ∃ F : ℝ → ℝ, F 0 = 1 ∧ Attenuates (1 + 0.978 * 2 ^ 2) 0 exTarget.rhoI F := by
  refine ⟨fun _ => rfl, fun _ => rfl, fun _ => rfl, by norm_num [exTarget], by norm_num [exTarget], ?_⟩
  obtain ⟨F, h0, h1, -⟩ := C102_flux_exists (c₁ := 1 + 0.978 * 2 ^ 2) (c₂ := 0) (c₃ := 0) (c₄ := 0) (r₁ := exTarget.rhoI)
    (r₂ := exTarget.rhoI) (r₃ := exTarget.rhoI) (r₄ := exTarget.rhoI) (by norm_num [exTarget, LayerTarget.rhoI, LayerTarget.rho0])
    le_rfl le_rfl le_rfl
  exact ⟨F, h0, h1⟩

/-! ## C104 -/

/-- C104: the thin-target rate is the number of nuclei times the cross section integrated over the range, and it is never smaller
than the rate in an extended target. If the total cross section is at most `M` in the energy range, the difference is at most
the fraction `M d / 2` of it. -/
theorem C104_thin_target {nr r : Callable} {a b : ℝ → ℝ} (ha : HasValues nr a) (hb : HasValues r b) {x : ℝ} (hx : 0 ≤ x)
    (ha0 : ∀ E, 0 ≤ a E) (hb0 : ∀ E, 0 ≤ b E) {E₀ E₁ : ℝ} (hE : E₀ ≤ E₁) (hai : IntervalIntegrable a volume E₀ E₁)
    (hbi : IntervalIntegrable b volume E₀ E₁) {d : ℝ} (hd : 0 ≤ d) :
    countRateThin nr r x E₀ E₁ d = x * d * (∫ E in E₀..E₁, b E) ∧
    0 ≤ countRate nr r x E₀ E₁ d ∧ countRate nr r x E₀ E₁ d ≤ countRateThin nr r x E₀ E₁ d ∧
    ∀ M, (∀ E ∈ Icc E₀ E₁, a E + x * b E ≤ M) →
      countRateThin nr r x E₀ E₁ d * (1 - M * d / 2) ≤ countRate nr r x E₀ E₁ d := by
  have hc : ∀ E, 0 ≤ a E + x * b E := fun E => add_nonneg (ha0 E) (mul_nonneg hx (hb0 E))
  have thin : countRateThin nr r x E₀ E₁ d = x * d * (∫ E in E₀..E₁, b E) := by
    simp only [countRateThin, nquad2, layerAlpha_ok ha hb, valueOf, mul_zero, Real.exp_zero, mul_one, intervalIntegral.integral_const_mul,
      intervalIntegral.integral_const, sub_zero, smul_eq_mul]
    ring
  have ext : countRate nr r x E₀ E₁ d =
      ∫ ρ in (0 : ℝ)..d, ∫ E in E₀..E₁, x * b E * Real.exp (-(a E + x * b E) * ρ) := by
    simp only [countRate, nquad2, layerAlpha_ok ha hb, valueOf]
  have hmeas : ∀ ρ, AEStronglyMeasurable (fun E => Real.exp (-(a E + x * b E) * ρ)) (volume.restrict (uIoc E₀ E₁)) := by
    intro ρ
    have h1 : AEStronglyMeasurable a (volume.restrict (uIoc E₀ E₁)) := hai.def'.aestronglyMeasurable
    have h2 : AEStronglyMeasurable b (volume.restrict (uIoc E₀ E₁)) := hbi.def'.aestronglyMeasurable
    exact Real.continuous_exp.comp_aestronglyMeasurable (((h1.add (h2.const_mul x)).neg).mul_const ρ)
  have hint : ∀ ρ, 0 ≤ ρ → IntervalIntegrable (fun E => x * b E * Real.exp (-(a E + x * b E) * ρ)) volume E₀ E₁ := by
    intro ρ hρ
    refine (hbi.const_mul x).mono_fun (((hbi.const_mul x).def'.aestronglyMeasurable).mul (hmeas ρ)) ?_
    refine Filter.Eventually.of_forall fun E => ?_
    beta_reduce
    rw [norm_mul]
    refine mul_le_of_le_one_right (norm_nonneg _) ?_
    rw [Real.norm_of_nonneg (Real.exp_pos _).le, Real.exp_le_one_iff]
    have := mul_nonneg (hc E) hρ
    linarith
  have hle : ∀ ρ, 0 ≤ ρ → ∀ E, x * b E * Real.exp (-(a E + x * b E) * ρ) ≤ x * b E := by
    intro ρ hρ E
    refine mul_le_of_le_one_right (mul_nonneg hx (hb0 E)) (Real.exp_le_one_iff.2 ?_)
    have := mul_nonneg (hc E) hρ
    linarith
  have hanti : AntitoneOn (fun ρ => ∫ E in E₀..E₁, x * b E * Real.exp (-(a E + x * b E) * ρ)) (uIcc 0 d) := by
    intro ρ hρ ρ' hρ' h
    rw [uIcc_of_le hd] at hρ hρ'
    refine intervalIntegral.integral_mono_on hE (hint ρ' hρ'.1) (hint ρ hρ.1) fun E _ => ?_
    refine mul_le_mul_of_nonneg_left (Real.exp_le_exp.2 ?_) (mul_nonneg hx (hb0 E))
    have := mul_le_mul_of_nonneg_left h (hc E)
    linarith
  have hI : IntervalIntegrable (fun ρ => ∫ E in E₀..E₁, x * b E * Real.exp (-(a E + x * b E) * ρ)) volume 0 d :=
    hanti.intervalIntegrable
  have hB : ∀ ρ ∈ Icc 0 d, ∫ E in E₀..E₁, x * b E * Real.exp (-(a E + x * b E) * ρ) ≤ x * ∫ E in E₀..E₁, b E := by
    intro ρ hρ
    rw [← intervalIntegral.integral_const_mul]
    exact intervalIntegral.integral_mono_on hE (hint ρ hρ.1) (hbi.const_mul x) fun E _ => hle ρ hρ.1 E
  refine ⟨thin, ?_, ?_, ?_⟩
  · rw [ext]
    refine intervalIntegral.integral_nonneg hd fun ρ _ => ?_
    exact intervalIntegral.integral_nonneg hE fun E _ => mul_nonneg (mul_nonneg hx (hb0 E)) (Real.exp_pos _).le
  · rw [ext, thin]
    refine (intervalIntegral.integral_mono_on hd hI intervalIntegrable_const hB).trans (le_of_eq ?_)
    simp
    ring
  · intro M hM
    rw [ext, thin]
    have key : ∀ ρ ∈ Icc 0 d, (x * ∫ E in E₀..E₁, b E) * (1 - M * ρ) ≤
        ∫ E in E₀..E₁, x * b E * Real.exp (-(a E + x * b E) * ρ) := by
      intro ρ hρ
      have e : (x * ∫ E in E₀..E₁, b E) * (1 - M * ρ) = ∫ E in E₀..E₁, x * b E * (1 - M * ρ) := by
        rw [intervalIntegral.integral_mul_const, intervalIntegral.integral_const_mul]
      rw [e]
      refine intervalIntegral.integral_mono_on hE ((hbi.const_mul x).mul_const _) (hint ρ hρ.1) fun E hE' => ?_
      refine mul_le_mul_of_nonneg_left ?_ (mul_nonneg hx (hb0 E))
      have h1 := Real.add_one_le_exp (-(a E + x * b E) * ρ)
      have h2 := mul_le_mul_of_nonneg_right (hM E hE') hρ.1
      linarith
    refine le_trans (le_of_eq ?_) (intervalIntegral.integral_mono_on hd (Continuous.intervalIntegrable (by fun_prop) _ _) hI key)
    rw [intervalIntegral.integral_const_mul, intervalIntegral.integral_sub intervalIntegrable_const
      (Continuous.intervalIntegrable (by fun_prop) _ _), intervalIntegral.integral_const_mul, integral_id]
    simp
    ring

/-- the first layer of the example on the energies from 0 to 1 -/
example : 0 < countRate exTarget.nr exTarget.s116 exTarget.x116 0 1 0.5 := by
  obtain ⟨h1, -, -, h4⟩ := C104_thin_target (nr := exTarget.nr) (r := exTarget.s116) (a := fun _ => 1) (b := fun E => E ^ 2)
    (fun _ => rfl) (fun _ => rfl) (x := exTarget.x116) (by norm_num [exTarget]) (fun _ => zero_le_one) (fun E => sq_nonneg E)
    (zero_le_one) (Continuous.intervalIntegrable (by fun_prop) _ _) (Continuous.intervalIntegrable (by fun_prop) _ _)
    (d := 0.5) (by norm_num)
  refine lt_of_lt_of_le ?_ (h4 1.978 fun E hE => ?_)
  · rw [h1, integral_pow]
    norm_num [exTarget]
  · simp only [exTarget]
    nlinarith [hE.1, hE.2]

end Ries
