import Verif.Props.MonteCarlo
import Verif.Props.SelfAbsorptionBounds

/-!
# C197: what a sampled width without a warning says about the width of the level
-/

namespace Ries

open Filter

/-- a pass in which the self absorption at the first two points and the measured value agree within a tenth of the tolerance finds one of the
first two points, without a warning -/
theorem mcPass_flat {R : Draw → ℝ → Except Err ℝ} {d : Draw} {a b : ℝ} (h0 : R d 8.17e-6 = .ok a) (h1 : R d (1.05 * 8.17e-6) = .ok b)
    (hab : |a - b| ≤ 1e-5) (ha : |a - d.rExp| ≤ 1e-5) (hb : |b - d.rExp| ≤ 1e-5)
    (total n : ℕ) {s : MCState} (hg : s.gammas.length = n) (hr : s.rExps.length = n) : ∃ t g, mcPass R total n d s = .ok t ∧
      t.gammas = s.gammas ++ [g] ∧ (g = 8.17e-6 ∨ g = 1.05 * 8.17e-6) ∧ t.warned = s.warned := by
  obtain ⟨e1, e2, e3⟩ := mcProgress_lists total n s
  have hs := C139_stops (f := fun Γ => do let r ← R d Γ; .ok |r - d.rExp|) (x := 8.17e-6) (tol := 0.1 * rExpTolerance)
    (a := |a - d.rExp|) (b := |b - d.rExp|) (by norm_num) (by rw [h0]; rfl) (by rw [h1]; rfl)
    (by rw [abs_of_pos (by norm_num)]; norm_num [rExpTolerance])
    (by
      refine (abs_abs_sub_abs_le_abs_sub _ _).trans ?_
      rw [show a - d.rExp - (b - d.rExp) = a - b by ring]
      refine hab.trans ?_
      norm_num [rExpTolerance])
  have hclose : ∀ v : ℝ, |v - d.rExp| ≤ 1e-5 → isClose v d.rExp rExpTolerance := fun v hv => by
    unfold isClose rExpTolerance
    have : (0 : ℝ) ≤ 1e-5 * |d.rExp| := by positivity
    have h5 : (1e-5 : ℝ) ≤ 1e-4 := by norm_num
    linarith
  unfold mcPass
  simp only [e1, e2, e3, listItem_append hr, Bind.bind, Except.bind] at hs ⊢
  by_cases hlt : |b - d.rExp| < |a - d.rExp|
  · rw [if_pos hlt] at hs
    simp only [hs, listItem_append hg, h1, if_pos (hclose b hb)]
    exact ⟨_, _, rfl, rfl, Or.inr rfl, rfl⟩
  · rw [if_neg hlt] at hs
    simp only [hs, listItem_append hg, h0, if_pos (hclose a ha)]
    exact ⟨_, _, rfl, rfl, Or.inl rfl, rfl⟩

/-- the limits of the notebook are not empty for widths above the start value -/
theorem notebook_range (k : PhysConst) (D : Li6Data) {Γ : ℝ} (hΓ : 8.17e-6 ≤ Γ) :
    (3.8e-8 : ℝ) < 0.999 * max Γ (2 * Real.sqrt (Real.log 2) * dopplerWidth k D.m6 411 3.56288) :=
  lt_of_lt_of_le (by norm_num : (3.8e-8 : ℝ) < 0.999 * 8.17e-6)
    (mul_le_mul_of_nonneg_left (hΓ.trans (le_max_left _ _)) (by norm_num))

/-- C197 is false of the code. For every scatterer, diameter and enrichment there is a thin absorber such that for *every* width `Γ` of the
level above the start value, with the self absorption of exactly that width as the measured value, the loop stores the start value or a
value 5 % above it, and prints no warning: the factor between the width of the level and the width that is found is arbitrarily large. -/
theorem C197_refuted (k : PhysConst) {D : Li6Data} (hD : D.Ok) {mS diameter enrichment : ℝ} (hS : 0 < mS) (hd : 0 < diameter)
    (hx : 0 < enrichment) : ∃ mA, 0 < mA ∧ ∀ Γ, 8.17e-6 ≤ Γ → ∃ rE s g, 0 < rE ∧
      li6R k D Γ mA mS diameter enrichment 411 0.999 = .ok rE ∧
      monteCarlo (drawR k D) (fun _ => ⟨mA, mS, diameter, enrichment, rE⟩) 1 = .ok s ∧
      s.gammas = [g] ∧ s.warned = [] ∧ g ≤ 1.05 * 8.17e-6 := by
  set c := li6Peak k * (2 * enrichment / (D.molarMass enrichment * D.u * Real.pi * (0.5 * diameter * 1e15) ^ 2)) with hc
  have hden : ∀ mA, li6Peak k * D.arealDensity mA diameter enrichment = c * mA := fun mA => by
    rw [hc, Li6Data.arealDensity]; ring
  refine ⟨1e-5 / (|c| + 1), by positivity, fun Γ hΓ => ?_⟩
  set mA := 1e-5 / (|c| + 1) with hmA
  have hA : 0 < mA := by positivity
  have hsmall : c * mA ≤ 1e-5 := by
    rw [hmA, mul_div_assoc', div_le_iff₀ (by positivity)]
    have := le_abs_self c
    nlinarith
  have key : ∀ Γ : ℝ, 8.17e-6 ≤ Γ → ∃ R, li6R k D Γ mA mS diameter enrichment 411 0.999 = .ok R ∧ 0 < R ∧ R ≤ 1e-5 := fun Γ h => by
    obtain ⟨R, e, p, q, -⟩ := C135_li6 k hD (lt_of_lt_of_le (by norm_num) h) hd hx (by norm_num : (0 : ℝ) ≤ 411) (by norm_num)
      (by norm_num) (notebook_range k D h) hA hS
    refine ⟨R, e, p, q.trans ?_⟩
    have := Real.add_one_le_exp (-li6Peak k * D.arealDensity mA diameter enrichment)
    rw [neg_mul, hden] at this ⊢
    linarith
  obtain ⟨rE, e, p, q⟩ := key Γ hΓ
  obtain ⟨a, ea, pa, qa⟩ := key 8.17e-6 le_rfl
  obtain ⟨b, eb, pb, qb⟩ := key (1.05 * 8.17e-6) (by norm_num)
  obtain ⟨t, g, ht, hg, hor, hw⟩ := mcPass_flat (R := drawR k D) (d := ⟨mA, mS, diameter, enrichment, rE⟩) ea eb
    (abs_le.2 ⟨by linarith, by linarith⟩) (abs_le.2 ⟨by linarith, by linarith⟩) (abs_le.2 ⟨by linarith, by linarith⟩)
    1 0 (s := ⟨0, [], [], [], []⟩) rfl rfl
  refine ⟨rE, t, g, p, e, ht, hg, hw, ?_⟩
  rcases hor with h | h <;> rw [h]
  norm_num

/-- The same at the other end: whatever the width `Γ` of the level, the width that is found is the start value or 5 % more, without a warning,
for all absorbers that are thick enough. -/
theorem C197_thick (k : PhysConst) {D : Li6Data} (hD : D.Ok) {mS diameter enrichment : ℝ} (hS : 0 < mS) (hd : 0 < diameter)
    (hx : 0 < enrichment) {Γ : ℝ} (hΓ : 8.17e-6 ≤ Γ) : ∃ m₀, ∀ mA, m₀ ≤ mA → ∃ rE s g,
      li6R k D Γ mA mS diameter enrichment 411 0.999 = .ok rE ∧
      monteCarlo (drawR k D) (fun _ => ⟨mA, mS, diameter, enrichment, rE⟩) 1 = .ok s ∧
      s.gammas = [g] ∧ s.warned = [] ∧ (g = 8.17e-6 ∨ g = 1.05 * 8.17e-6) := by
  have key : ∀ Γ : ℝ, 8.17e-6 ≤ Γ → ∃ m₀, ∀ mA, m₀ ≤ mA → ∃ R, li6R k D Γ mA mS diameter enrichment 411 0.999 = .ok R ∧
      1 - 1e-5 < R ∧ R < 1 := fun Γ h => by
    obtain ⟨R, e, hp⟩ := C105_li6 k hD (lt_of_lt_of_le (by norm_num) h) hd hx (by norm_num : (0 : ℝ) ≤ 411) (by norm_num)
      (by norm_num) (notebook_range k D h)
    obtain ⟨-, -, hlt, ht, -⟩ := hp mS hS
    obtain ⟨m₀, hm⟩ := eventually_atTop.1 (ht.eventually_const_lt (by norm_num : (1 - 1e-5 : ℝ) < 1))
    exact ⟨m₀, fun mA h => ⟨_, e mA mS hS, hm mA h, hlt mA⟩⟩
  obtain ⟨m1, h1⟩ := key Γ hΓ
  obtain ⟨m2, h2⟩ := key 8.17e-6 le_rfl
  obtain ⟨m3, h3⟩ := key (1.05 * 8.17e-6) (by norm_num)
  refine ⟨max m1 (max m2 m3), fun mA hm => ?_⟩
  rw [max_le_iff, max_le_iff] at hm
  obtain ⟨rE, e, p, q⟩ := h1 mA hm.1
  obtain ⟨a, ea, pa, qa⟩ := h2 mA hm.2.1
  obtain ⟨b, eb, pb, qb⟩ := h3 mA hm.2.2
  obtain ⟨t, g, ht, hg, hor, hw⟩ := mcPass_flat (R := drawR k D) (d := ⟨mA, mS, diameter, enrichment, rE⟩) ea eb
    (abs_le.2 ⟨by linarith, by linarith⟩) (abs_le.2 ⟨by linarith, by linarith⟩) (abs_le.2 ⟨by linarith, by linarith⟩)
    1 0 (s := ⟨0, [], [], [], []⟩) rfl rfl
  exact ⟨rE, t, g, e, ht, hg, hw, hor⟩

/-- C197, what holds: let the computed self absorption differ from a function `S` of the width by at most `κ`, let the measured value differ
from `S Γ` by at most `η`, and let `S` separate the width `Γ` of the level from the other widths with a slope of at least `m`. Then every
sample without a warning is as close to `Γ` as the errors divided by the slope. This holds for every run and all numbers of samples. -/
theorem C197_partial {R : Draw → ℝ → Except Err ℝ} {draws : ℕ → Draw} {total : ℕ} {s : MCState} (h : monteCarlo R draws total = .ok s)
    {i : ℕ} (hi : i < total) {S : ℝ → ℝ} {Γ κ η m : ℝ} (hκ : ∀ g r, R (draws i) g = .ok r → |r - S g| ≤ κ)
    (hη : |(draws i).rExp - S Γ| ≤ η) (hm : 0 < m) (hS : ∀ g, s.gammas[i]? = some g → m * |g - Γ| ≤ |S g - S Γ|)
    (hw : ∀ g r, s.gammas[i]? = some g → ((draws i).rExp, g, r) ∉ s.warned) :
    ∃ g, s.gammas[i]? = some g ∧ |g - Γ| ≤ (1e-4 + 1e-5 * |(draws i).rExp| + κ + η) / m := by
  obtain ⟨g, r, hg, -, hR, himp⟩ := (C138_partial h).1.sample i hi
  refine ⟨g, hg, ?_⟩
  have hr : |r - (draws i).rExp| ≤ 1e-4 + 1e-5 * |(draws i).rExp| := by
    by_contra hcon
    exact hw g r hg (himp (not_le.1 hcon))
  have h1 := hκ g r hR
  have h2 := hS g hg
  rw [le_div_iff₀ hm, mul_comm]
  refine h2.trans ?_
  rw [abs_le] at *
  constructor <;> linarith [h1.1, h1.2, hr.1, hr.2, hη.1, hη.2]

/-- The hypotheses of `C197_partial` can be met: a self absorption of 10 per MeV and the measured value of the start value. -/
example : ∃ s, monteCarlo (fun _ Γ => .ok (10 * Γ)) (fun _ => ⟨1, 1, 1, 1, 8.17e-5⟩) 1 = .ok s ∧ s.warned = [] ∧
    ∃ g : ℝ, s.gammas[0]? = some g ∧ |g - 8.17e-6| ≤ (1e-4 + 1e-5 * |(8.17e-5 : ℝ)| + 0 + 0) / 10 := by
  obtain ⟨t, g, ht, hg, hor, hw⟩ := mcPass_flat (R := fun _ Γ => .ok (10 * Γ)) (d := ⟨1, 1, 1, 1, 8.17e-5⟩) rfl rfl
    (by rw [abs_le]; constructor <;> norm_num) (by rw [abs_le]; constructor <;> norm_num) (by rw [abs_le]; constructor <;> norm_num)
    1 0 (s := ⟨0, [], [], [], []⟩) rfl rfl
  have hm : monteCarlo (fun _ Γ => .ok (10 * Γ)) (fun _ => ⟨1, 1, 1, 1, 8.17e-5⟩) 1 = .ok t := ht
  refine ⟨t, hm, hw, C197_partial (S := fun Γ => 10 * Γ) (i := 0) (total := 1) (draws := fun _ => ⟨1, 1, 1, 1, 8.17e-5⟩) hm (by norm_num) ?_ ?_
    (by norm_num) ?_ ?_⟩
  · intro g r h
    cases h
    simp
  · norm_num
  · intro g _
    rw [← mul_sub, abs_mul, abs_of_pos (by norm_num : (0 : ℝ) < 10)]
  · intro g r _
    rw [hw]
    simp

/-- a level of 1 MeV, a thin absorber: the notebook finds at most 8.6 eV -/
example : ∃ mA rE s g, 0 < mA ∧ li6R exConst exLi6 1 mA 5.033e-3 0.019 0.95 411 0.999 = .ok rE ∧
    monteCarlo (drawR exConst exLi6) (fun _ => ⟨mA, 5.033e-3, 0.019, 0.95, rE⟩) 1 = .ok s ∧ s.gammas = [g] ∧ s.warned = [] ∧
    g ≤ 8.6e-6 := by
  obtain ⟨mA, hA, h⟩ := C197_refuted exConst exLi6_ok (mS := 5.033e-3) (diameter := 0.019) (enrichment := 0.95) (by norm_num)
    (by norm_num) (by norm_num)
  obtain ⟨rE, s, g, -, e, hs, hg, hw, hle⟩ := h 1 (by norm_num)
  exact ⟨mA, rE, s, g, hA, e, hs, hg, hw, hle.trans (by norm_num)⟩

end Ries
