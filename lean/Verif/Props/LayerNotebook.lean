import Verif.Props.LayerRates
import Verif.Props.XrmacCont
import Verif.Props.XrmacModule

/-! # C144 for the cross sections of the notebook: Voigt profiles and the shipped attenuation table of tin -/

open MeasureTheory Set

namespace Ries

/-- a stored table as a function on numbers; infinite or undefined values do not occur in the theorems -/
noncomputable def StoredXrmac.callable (o : StoredXrmac) : Callable := fun E =>
  match o.call E with
  | .ok (.fin v) => .ok v
  | .ok _ => .error .runtimeError
  | .error e => .error e

theorem edges_countable (t : Table) : {E | AbsorptionEdge t E}.Countable := by
  refine ((t.map Prod.fst).toFinset : Set ℝ).toFinite.countable.mono ?_
  rintro E ⟨pre, c, mid, d, post, rfl, rfl, -⟩
  simp

/-- the interpolated cross section of a table is positive and can be integrated -/
theorem xrmac_integrable {t : Table} (ht : PosTable t) (hs : SortedTable t) {E₀ E₁ : ℝ} (h0 : 0 ≤ E₀) (hE : E₀ ≤ E₁) :
    ∃ f : ℝ → ℝ, (∀ E, 0 ≤ E → HasValue t E (f E) ∧ 0 < f E) ∧ IntervalIntegrable f volume E₀ E₁ := by
  obtain ⟨f, h1, -, h3, -⟩ := C98_continuity ht hs
  obtain ⟨lo, hi, hlo, hb⟩ : ∃ lo hi : ℝ, 0 < lo ∧ ∀ r ∈ t, lo ≤ r.2 ∧ r.2 ≤ hi := by
    have hne := ht.1
    have key : ∀ s : Table, (∀ r ∈ s, 0 < r.2) → ∃ lo hi : ℝ, 0 < lo ∧ ∀ r ∈ s, lo ≤ r.2 ∧ r.2 ≤ hi := by
      intro s
      induction s with
      | nil => exact fun _ => ⟨1, 1, one_pos, by simp⟩
      | cons a s ih =>
        intro hp
        obtain ⟨lo, hi, h1, h2⟩ := ih fun r hr => hp r (by simp [hr])
        refine ⟨min lo a.2, max hi a.2, lt_min h1 (hp a (by simp)), fun r hr => ?_⟩
        rcases List.mem_cons.1 hr with rfl | hr
        · exact ⟨min_le_right _ _, le_max_right _ _⟩
        · exact ⟨(min_le_left _ _).trans (h2 r hr).1, (h2 r hr).2.trans (le_max_left _ _)⟩
    exact key t fun r hr => (ht.2 r hr).2
  have hval : ∀ E, 0 ≤ E → 0 < f E ∧ f E ≤ hi := by
    intro E hE
    obtain ⟨v, k1, -, k3, k4⟩ := C49_positive ht hE hlo hb
    have := h1 E hE
    rw [HasValue, k1] at this
    obtain rfl : v = f E := by simpa using this
    exact ⟨k4, k3⟩
  refine ⟨f, fun E hE => ⟨h1 E hE, (hval E hE).1⟩, ?_⟩
  rw [intervalIntegrable_iff_integrableOn_Ioc_of_le hE]
  have hc := edges_countable t
  have hm : AEStronglyMeasurable f (volume.restrict (Ioc E₀ E₁)) := by
    have hS : MeasurableSet (Ioc E₀ E₁ \ {E | AbsorptionEdge t E}) := measurableSet_Ioc.diff hc.measurableSet
    have e : volume.restrict (Ioc E₀ E₁) = volume.restrict (Ioc E₀ E₁ \ {E | AbsorptionEdge t E}) := by
      refine Measure.restrict_congr_set ?_
      exact (sdiff_null_ae_eq_self (hc.measure_zero volume)).symm
    rw [e]
    refine ContinuousOn.aestronglyMeasurable (fun E hE => ?_) hS
    exact (h3 E (h0.trans_lt hE.1.1) hE.2).continuousWithinAt
  refine Integrable.mono' (g := fun _ => hi) (integrableOn_const (by simp)) hm ?_
  filter_upwards [ae_restrict_mem measurableSet_Ioc] with E hE
  have := hval E (h0.trans hE.1.le)
  rw [Real.norm_of_nonneg this.1.le]
  exact this.2

theorem symbol50 : symbolOf 50 = "Sn".toList := by decide +kernel

theorem tin_tabulated : Tabulated 50 ∧ 50 ∉ singleIsotope := by decide +kernel

/-- C144 holds for the cross sections of the notebook: with the shipped table of tin (per atom) and two Voigt resonances, for all enrichments,
thicknesses and ranges of nonnegative energies. In particular the third layer has a smaller rate than the first, if it is not thicker,
and the fourth than the second. -/
theorem C144_notebook {mu : ℝ} (hmu : 0 < mu) {r₂ r₆ : Reso} (hr₂ : IsVoigt r₂) (hr₆ : IsVoigt r₆) (hI₂ : 0 < r₂.ics) (hI₆ : 0 < r₆.ics)
    {x₂ x₆ d₁ d₂ d₃ d₄ E₀ E₁ : ℝ} (hx₂ : 0 < x₂) (hx₆ : 0 < x₆) (hd₁ : 0 < d₁) (hd₂ : 0 < d₂) (hd₃ : 0 < d₃) (hd₄ : 0 < d₄)
    (h0 : 0 ≤ E₀) (hE : E₀ < E₁) :
    ∃ st a, importXrmac shippedNist.render shippedDensities.render xrmacText mu = .ok st ∧ dictGet "Sn".toList st.perAtom = .ok a ∧
      (∃ σ σ₂ σ₆, GoodTarget ⟨a.callable, r₂.callable, r₆.callable, x₂, x₆, d₁, d₂, d₃, d₄⟩ σ σ₂ σ₆ E₀ E₁) ∧
      (d₃ ≤ d₁ → LayerTarget.rateIII ⟨a.callable, r₂.callable, r₆.callable, x₂, x₆, d₁, d₂, d₃, d₄⟩ E₀ E₁ <
        LayerTarget.rateI ⟨a.callable, r₂.callable, r₆.callable, x₂, x₆, d₁, d₂, d₃, d₄⟩ E₀ E₁) ∧
      (d₄ ≤ d₂ → LayerTarget.rateIV ⟨a.callable, r₂.callable, r₆.callable, x₂, x₆, d₁, d₂, d₃, d₄⟩ E₀ E₁ <
        LayerTarget.rateII ⟨a.callable, r₂.callable, r₆.callable, x₂, x₆, d₁, d₂, d₃, d₄⟩ E₀ E₁) := by
  obtain ⟨st, h1, h2⟩ := C73_partial hmu
  obtain ⟨st', h1', -, h3⟩ := C74_shipped mu
  obtain rfl : st = st' := Except.ok.inj (h1.symm.trans h1')
  obtain ⟨g, a, hg, ha, hval⟩ := h2 50 (by decide)
  obtain ⟨g', hg', ht, hs, -⟩ := h3 50 (by decide)
  obtain rfl : g = g' := Except.ok.inj (hg.symm.trans hg')
  rw [symbol50] at ha
  obtain ⟨f, hf, hi⟩ := xrmac_integrable ht hs h0 hE.le
  obtain ⟨σ₂, hs₂, c₂, -, p₂⟩ := shape_sigma (.inr (.inr (.inr hr₂))) hI₂
  obtain ⟨σ₆, hs₆, c₆, -, p₆⟩ := shape_sigma (.inr (.inr (.inr hr₆))) hI₆
  have ev : ∀ E, 0 ≤ E → a.call E = .ok (.fin (1e29 * (shippedElement 50).amu * mu * f E)) := by
    intro E hE
    obtain ⟨v, -, k1, k2, -⟩ := hval E hE
    have k3 : g.call E = .ok (.fin (f E)) := (hf E hE).1
    rw [k1] at k3
    obtain rfl : v = f E := by simpa using k3
    exact k2
  have hc : 0 < 1e29 * ((shippedElement 50).amu : ℝ) * mu := by
    obtain ⟨v, hv, -, k2, k3, -⟩ := hval 0 le_rfl
    obtain ⟨w, k4, k5⟩ := k3 tin_tabulated.1 tin_tabulated.2
    rw [k2] at k4
    obtain rfl : 1e29 * ((shippedElement 50).amu : ℝ) * mu * v = w := by simpa only [Except.ok.injEq, Fl.fin.injEq] using k4
    exact pos_of_mul_pos_left k5 hv.le
  generalize 1e29 * ((shippedElement 50).amu : ℝ) * mu = c at ev hc
  clear hval h2 h3 h1'
  have good : GoodTarget ⟨a.callable, r₂.callable, r₆.callable, x₂, x₆, d₁, d₂, d₃, d₄⟩ (fun E => c * f E) σ₂ σ₆ E₀ E₁ :=
    { h0 := fun E hE => by simp [StoredXrmac.callable, ev E (h0.trans hE.1)]
      h2 := fun E _ => callable_values hs₂ E
      h6 := fun E _ => callable_values hs₆ E
      d1 := hd₁
      d2 := hd₂
      d3 := hd₃
      d4 := hd₄
      x2 := hx₂
      x6 := hx₆
      p0 := fun E hE => (mul_pos hc (hf E (h0.trans hE.1)).2).le
      p2 := fun E _ => p₂ E
      p6 := fun E _ => p₆ E
      hE := hE
      i0 := hi.const_mul c
      i2 := c₂.intervalIntegrable _ _
      i6 := c₆.intervalIntegrable _ _ }
  obtain ⟨k1, k2, -⟩ := C144_shadow _ good
  exact ⟨st, a, h1, ha, ⟨_, _, _, good⟩, k1, k2⟩

/-- There are such resonances. -/
example : ∃ r, IsVoigt r ∧ 0 < r.ics := by
  obtain ⟨r, h, he, hI⟩ := exMid_resonance
  refine ⟨{ r with dist := (mkPV r.er 1e-5 (dopplerWidth exConst 11 293 r.er)).toSemiDist, params := [] },
    ⟨exConst, exGround, exMid, 11, 293, none, 1e-5, ?_, by norm_num, by norm_num, ?_, exMid_width, by norm_num, Or.inl (by norm_num)⟩, hI⟩
  · simp [mkVoigt, mkPseudoVoigt, h, exMid_width, getDopplerWidth_ok exConst (show (11 : ℝ) ≠ 0 by norm_num), bind, Except.bind]
  · norm_num [exGround, exMid, groundState, state]

end Ries
