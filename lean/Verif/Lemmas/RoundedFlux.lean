import Verif.Model.RoundedFlux
import Verif.Spec.RoundedFlux
import Mathlib.Analysis.SpecialFunctions.Exponential
import Mathlib.Analysis.Complex.Exponential

/-! # Lemmas on attenuation in floating point -/

namespace Ries

theorem mul_exp_neg_le {s : ℝ} (hs : 0 ≤ s) : s * Real.exp (-s) ≤ 1 / 2 := by
  have h2 : 2 * s ≤ Real.exp s := by nlinarith [sq_nonneg (s - 1), Real.quadratic_le_exp_of_nonneg hs]
  have hp : 0 < Real.exp (-s) := Real.exp_pos _
  have e : Real.exp s * Real.exp (-s) = 1 := by rw [← Real.exp_add]; simp
  nlinarith [mul_le_mul_of_nonneg_right h2 hp.le]

theorem exp_neg_diff (s t : ℝ) : Real.exp (-s) - Real.exp (-t) ≤ (t - s) * Real.exp (-s) := by
  have h1 := Real.add_one_le_exp (s - t)
  have e : Real.exp (-t) = Real.exp (-s) * Real.exp (s - t) := by rw [← Real.exp_add]; ring_nf
  rw [e]
  have := Real.exp_pos (-s)
  nlinarith

/-- the attenuation factor for an optical thickness with a relative and an absolute error -/
theorem exp_neg_near {s s' γ τ : ℝ} (hs : 0 ≤ s) (hs' : 0 ≤ s') (hγ : 0 ≤ γ) (hγ1 : γ ≤ 1 / 2) (hτ : 0 ≤ τ) (h : |s' - s| ≤ γ * s + τ) :
    |Real.exp (-s') - Real.exp (-s)| ≤ γ + 2 * τ := by
  have hb := abs_le.1 h
  have e1 : Real.exp (-s) ≤ 1 := Real.exp_le_one_iff.2 (by linarith)
  have e1' : Real.exp (-s') ≤ 1 := Real.exp_le_one_iff.2 (by linarith)
  have p := Real.exp_pos (-s)
  have p' := Real.exp_pos (-s')
  rcases le_total s s' with c | c
  · have k := exp_neg_diff s s'
    have m := mul_exp_neg_le hs
    have k2 : (s' - s) * Real.exp (-s) ≤ (γ * s + τ) * Real.exp (-s) := by
      gcongr
      linarith [hb.2]
    have k3 : γ * (s * Real.exp (-s)) ≤ γ * (1 / 2) := by gcongr
    have k4 : τ * Real.exp (-s) ≤ τ * 1 := by gcongr
    have k5 : Real.exp (-s') ≤ Real.exp (-s) := Real.exp_le_exp.2 (by linarith)
    rw [abs_sub_comm, abs_of_nonneg (by linarith)]
    linarith
  · have k := exp_neg_diff s' s
    have m := mul_exp_neg_le hs'
    have hs2 : s ≤ 2 * (s' + τ) := by
      have : γ * s ≤ 1 / 2 * s := by gcongr
      linarith [hb.1]
    have k1 : s - s' ≤ 2 * γ * s' + (2 * γ * τ + τ) := by
      have : γ * s ≤ γ * (2 * (s' + τ)) := by gcongr
      linarith [hb.1]
    have k0 : γ * τ ≤ 1 / 2 * τ := by gcongr
    have k2 : (s - s') * Real.exp (-s') ≤ (2 * γ * s' + 2 * τ) * Real.exp (-s') := by
      gcongr
      linarith
    have k3 : 2 * γ * (s' * Real.exp (-s')) ≤ 2 * γ * (1 / 2) := by gcongr
    have k4 : 2 * τ * Real.exp (-s') ≤ 2 * τ * 1 := by gcongr
    have k5 : Real.exp (-s) ≤ Real.exp (-s') := Real.exp_le_exp.2 (by linarith)
    rw [abs_of_nonneg (by linarith)]
    linarith

namespace RArith.Underflowing

variable {u ω : ℝ} {A : RArith}

theorem fl_nonneg (h : A.Underflowing u ω) {x : ℝ} (hx : 0 ≤ x) : 0 ≤ A.fl x := by
  rw [← h.zero]
  exact h.mono hx

/-- a sum and product of nonnegative numbers with relative errors -/
theorem total_err (h : A.Underflowing u ω) (hu : 0 ≤ u) (hu1 : u ≤ 1 / 1000) (hω : 0 ≤ ω) {ε a b a' b' : ℝ}
    (hε : 0 ≤ ε) (hε1 : ε ≤ 1 / 100) (ha : 0 ≤ a) (hb : 0 ≤ b) (ea : |a' - a| ≤ ε * a) (eb : |b' - b| ≤ (ε + u + ε * u) * b + ω) :
    |A.fl (a' + b') - (a + b)| ≤ (1.002 * ε + 2.05 * u) * (a + b) + 2.1 * ω := by
  have h1 := h.fl (a' + b')
  have k1 := abs_le.1 ea
  have k2 := abs_le.1 eb
  have hεu : ε * u ≤ 1 / 100 * u := by gcongr
  have ua : 0 ≤ u * a := mul_nonneg hu ha
  have ub : 0 ≤ u * b := mul_nonneg hu hb
  have hea : 0 ≤ ε * a := (abs_nonneg _).trans ea
  have heub : ε * u * b ≤ 1 / 100 * u * b := by gcongr
  have h2 : |(a' + b') - (a + b)| ≤ ε * a + ((ε + u + ε * u) * b + ω) := by
    have : (a' + b') - (a + b) = (a' - a) + (b' - b) := by ring
    rw [this]
    exact (abs_add_le _ _).trans (by linarith)
  have h3 : |a' + b'| ≤ a + b + (ε * a + ((ε + u + ε * u) * b + ω)) := by
    have := abs_add_le ((a' + b') - (a + b)) (a + b)
    rw [sub_add_cancel, abs_of_nonneg (add_nonneg ha hb)] at this
    linarith
  have h4 : u * |a' + b'| ≤ u * (a + b + (ε * a + ((ε + u + ε * u) * b + ω))) := by gcongr
  have h5 := abs_add_le (A.fl (a' + b') - (a' + b')) ((a' + b') - (a + b))
  rw [sub_add_sub_cancel] at h5
  have uω : u * ω ≤ 1 / 1000 * ω := by gcongr
  have u1 : u * (ε * a) ≤ 1 / 100 * (u * a) := by nlinarith
  have u2 : u * (ε * b) ≤ 1 / 100 * (u * b) := by nlinarith
  have u3 : u * (u * b) ≤ 1 / 1000 * (u * b) := by nlinarith
  have u4 : u * (ε * u * b) ≤ 1 / 1000 * (u * b) := by
    have : u * (ε * u * b) ≤ u * (1 / 100 * u * b) := by gcongr
    nlinarith
  have e1 : 0 ≤ ε * a := hea
  have e2 : 0 ≤ ε * b := mul_nonneg hε hb
  norm_num at *
  linarith

/-- a rounded product of a factor in the format and a number with relative error -/
theorem part_err (h : A.Underflowing u ω) (hu : 0 ≤ u) {ε x b b' : ℝ} (hx : 0 ≤ x) (hb : 0 ≤ b) (eb : |b' - b| ≤ ε * b) :
    |A.fl (x * b') - x * b| ≤ (ε + u + ε * u) * (x * b) + ω := by
  have h1 := h.fl (x * b')
  have h2 : |x * b' - x * b| ≤ x * (ε * b) := by
    rw [← mul_sub, abs_mul, abs_of_nonneg hx]
    gcongr
  have h3 := abs_add_le (x * b' - x * b) (x * b)
  rw [sub_add_cancel, abs_of_nonneg (mul_nonneg hx hb)] at h3
  have h4 : u * |x * b'| ≤ u * (x * (ε * b) + x * b) := by gcongr; linarith
  have h5 := abs_add_le (A.fl (x * b') - x * b') (x * b' - x * b)
  rw [sub_add_sub_cancel] at h5
  linarith

/-- the attenuation factor with a computed coefficient and a computed depth -/
theorem factor_err (h : A.Underflowing u ω) (hu : 0 ≤ u) (hu1 : u ≤ 1 / 1000) (hω : 0 ≤ ω) {ε c c' ρ ρ' τ : ℝ}
    (hε : 0 ≤ ε) (hε1 : ε ≤ 1 / 100) (hc : 0 ≤ c) (hc' : 0 ≤ c') (hρ : 0 ≤ ρ) (hρ' : 0 ≤ ρ') (hτ : 0 ≤ τ)
    (ec : |c' - c| ≤ (1.002 * ε + 2.05 * u) * c + 2.1 * ω) (eρ : |ρ' - ρ| ≤ τ) :
    |A.exp (A.fl (-c' * ρ')) - Real.exp (-(c * ρ))| ≤ 1.1 * ε + 8 * u + 3 * (c * τ) + 5 * (ω * (ρ' + 1)) := by
  set g := 1.002 * ε + 2.05 * u with hg
  have g0 : 0 ≤ g := by positivity
  have g1 : g ≤ 1 / 80 := by rw [hg]; norm_num at *; linarith
  have d1 : |c' * ρ' - c * ρ| ≤ (g * c + 2.1 * ω) * ρ' + c * τ := by
    have e : c' * ρ' - c * ρ = (c' - c) * ρ' + c * (ρ' - ρ) := by ring
    rw [e]
    refine (abs_add_le _ _).trans ?_
    rw [abs_mul, abs_mul, abs_of_nonneg hρ', abs_of_nonneg hc]
    gcongr
  have hcτ : 0 ≤ c * τ := mul_nonneg hc hτ
  have hcρ : 0 ≤ c * ρ := mul_nonneg hc hρ
  have ωρ : 0 ≤ ω * ρ' := mul_nonneg hω hρ'
  have d2 : g * c * ρ' ≤ g * (c * ρ) + 1 / 80 * (c * τ) := by
    have h1 : ρ' ≤ ρ + τ := by linarith [(abs_le.1 eρ).2]
    have h2 : g * c * ρ' ≤ g * c * (ρ + τ) := by gcongr
    have h3 : g * (c * τ) ≤ 1 / 80 * (c * τ) := by gcongr
    linarith
  have d3 : |c' * ρ' - c * ρ| ≤ g * (c * ρ) + 1.02 * (c * τ) + 2.1 * (ω * ρ') := by norm_num at *; linarith
  have d4 := h.fl (-c' * ρ')
  have d5 : |-c' * ρ'| = c' * ρ' := by rw [neg_mul, abs_neg, abs_of_nonneg (mul_nonneg hc' hρ')]
  rw [d5] at d4
  have d6 : u * (c' * ρ') ≤ u * (c * ρ) + 1 / 1000 * (g * (c * ρ) + 1.02 * (c * τ) + 2.1 * (ω * ρ')) := by
    have h1 : c' * ρ' ≤ c * ρ + (g * (c * ρ) + 1.02 * (c * τ) + 2.1 * (ω * ρ')) := by linarith [(abs_le.1 d3).2]
    have h2 : u * (c' * ρ') ≤ u * (c * ρ + (g * (c * ρ) + 1.02 * (c * τ) + 2.1 * (ω * ρ'))) := by gcongr
    have h3 : u * (g * (c * ρ) + 1.02 * (c * τ) + 2.1 * (ω * ρ')) ≤ 1 / 1000 * (g * (c * ρ) + 1.02 * (c * τ) + 2.1 * (ω * ρ')) := by gcongr
    linarith
  have hle : A.fl (-c' * ρ') ≤ 0 := by
    rw [← h.zero]
    exact h.mono (by nlinarith [mul_nonneg hc' hρ'])
  set s' := -A.fl (-c' * ρ') with hs'
  have d7 : |s' - c * ρ| ≤ (1.001 * g + u) * (c * ρ) + (1.1 * (c * τ) + 2.15 * (ω * ρ') + ω) := by
    have e : s' - c * ρ = -(A.fl (-c' * ρ') - -c' * ρ') + (c' * ρ' - c * ρ) := by rw [hs']; ring
    rw [e]
    refine (abs_add_le _ _).trans ?_
    rw [abs_neg]
    have := mul_nonneg g0 hcρ
    norm_num at *
    linarith
  have d8 := exp_neg_near hcρ (by rw [hs']; linarith) (by positivity) (by rw [hg]; norm_num at *; linarith) (by positivity) d7
  have d9 := h.exp _ hle
  have e9 : A.fl (-c' * ρ') = -s' := by rw [hs', neg_neg]
  rw [e9] at d9 ⊢
  have e1 : Real.exp (-s') ≤ 1 := Real.exp_le_one_iff.2 (by rw [← e9]; exact hle)
  have d10 : 4 * u * Real.exp (-s') ≤ 4 * u * 1 := by gcongr
  have d11 := abs_add_le (A.exp (-s') - Real.exp (-s')) (Real.exp (-s') - Real.exp (-(c * ρ)))
  rw [sub_add_sub_cancel] at d11
  have hgv : g ≤ 1.002 * ε + 2.05 * u := le_of_eq hg
  clear_value g
  norm_num at *
  linarith

/-- the factor lies between 0 and 1 -/
theorem factor_mem (h : A.Underflowing u ω) {c ρ : ℝ} (hc : 0 ≤ c) (hρ : 0 ≤ ρ) :
    0 ≤ A.exp (A.fl (-c * ρ)) ∧ A.exp (A.fl (-c * ρ)) ≤ 1 := by
  refine ⟨h.exp_nonneg _, ?_⟩
  rw [← h.exp_zero]
  refine h.exp_mono ?_
  rw [← h.zero]
  exact h.mono (by nlinarith [mul_nonneg hc hρ])

/-- a rounded product of a rate of at most `B` and a factor in `[0, 1]` -/
theorem times_err (h : A.Underflowing u ω) (hu : 0 ≤ u) (hu1 : u ≤ 1 / 1000) {S B S' p p' δ η w : ℝ} (hS : 0 ≤ S) (hSB : S ≤ B)
    (hp' : 0 ≤ p') (hp1 : p' ≤ 1) (hδ : δ ≤ 1 / 10) (hw : 0 ≤ w) (eS : |S' - S| ≤ δ * B + w) (ep : |p' - p| ≤ η) :
    |A.fl (S' * p') - S * p| ≤ (δ + η + 1.1 * u) * B + 1.001 * w + ω := by
  have hB : 0 ≤ B := hS.trans hSB
  have h1 := h.fl (S' * p')
  have h2 : |S'| ≤ 1.1 * B + w := by
    have h3 := abs_add_le (S' - S) S
    rw [sub_add_cancel, abs_of_nonneg hS] at h3
    have h4 : δ * B ≤ 1 / 10 * B := by gcongr
    norm_num at *
    linarith
  have h3 : |S' * p'| ≤ 1.1 * B + w := by
    rw [abs_mul, abs_of_nonneg hp']
    exact (mul_le_of_le_one_right (abs_nonneg _) hp1).trans h2
  have h4 : u * |S' * p'| ≤ u * (1.1 * B + w) := by gcongr
  have h5 : |S' * p' - S * p| ≤ δ * B + w + B * η := by
    have e : S' * p' - S * p = (S' - S) * p' + S * (p' - p) := by ring
    rw [e]
    refine (abs_add_le _ _).trans ?_
    rw [abs_mul, abs_mul, abs_of_nonneg hp', abs_of_nonneg hS]
    exact add_le_add ((mul_le_of_le_one_right (abs_nonneg _) hp1).trans eS) (by gcongr)
  have h6 := abs_add_le (A.fl (S' * p') - S' * p') (S' * p' - S * p)
  rw [sub_add_sub_cancel] at h6
  have h7 : u * w ≤ 1 / 1000 * w := by gcongr
  norm_num at *
  linarith

/-- a rounded product of two factors in `[0, 1]` -/
theorem pair_err (h : A.Underflowing u ω) (hu : 0 ≤ u) {p p' q q' η ζ : ℝ} (hp : 0 ≤ p) (hp1 : p ≤ 1)
    (hp' : 0 ≤ p') (hp1' : p' ≤ 1) (hq' : 0 ≤ q') (hq1' : q' ≤ 1) (ep : |p' - p| ≤ η) (eq : |q' - q| ≤ ζ) :
    |A.fl (p' * q') - p * q| ≤ η + ζ + u + ω ∧ 0 ≤ A.fl (p' * q') ∧ A.fl (p' * q') ≤ 1 := by
  have h1 := h.fl (p' * q')
  have hpq := mul_nonneg hp' hq'
  have hpq1 : p' * q' ≤ 1 := mul_le_one₀ hp1' hq' hq1'
  rw [abs_of_nonneg hpq] at h1
  have h2 : u * (p' * q') ≤ u * 1 := by gcongr
  have h3 : |p' * q' - p * q| ≤ η + ζ := by
    have e : p' * q' - p * q = (p' - p) * q' + p * (q' - q) := by ring
    rw [e]
    refine (abs_add_le _ _).trans ?_
    rw [abs_mul, abs_mul, abs_of_nonneg hq', abs_of_nonneg hp]
    exact add_le_add ((mul_le_of_le_one_right (abs_nonneg _) hq1').trans ep) ((mul_le_of_le_one_left (abs_nonneg _) hp1).trans eq)
  have h6 := abs_add_le (A.fl (p' * q') - p' * q') (p' * q' - p * q)
  rw [sub_add_sub_cancel] at h6
  refine ⟨by linarith, h.fl_nonneg hpq, ?_⟩
  rw [← h.one]
  exact h.mono hpq1

/-- a computed sum of two numbers not above `R` -/
theorem bound_err (h : A.Underflowing u ω) (hu : 0 ≤ u) {r r' d R e : ℝ} (h0 : 0 ≤ r + d) (hR : r + d ≤ R) (er : |r' - r| ≤ e) :
    |A.fl (r' + d) - (r + d)| ≤ u * (R + e) + ω + e := by
  have h1 := h.fl (r' + d)
  have h2 : |r' + d - (r + d)| ≤ e := by simpa using er
  have h3 := abs_add_le (r' + d - (r + d)) (r + d)
  rw [sub_add_cancel, abs_of_nonneg h0] at h3
  have h4 : u * |r' + d| ≤ u * (R + e) := by gcongr; linarith
  have h6 := abs_add_le (A.fl (r' + d) - (r' + d)) (r' + d - (r + d))
  rw [sub_add_sub_cancel] at h6
  linarith

/-- a number with a relative error of at most 1 is not negative -/
theorem near_nonneg {ε a a' : ℝ} (hε1 : ε ≤ 1 / 100) (ha : 0 ≤ a) (ea : |a' - a| ≤ ε * a) : 0 ≤ a' := by
  have h1 : ε * a ≤ 1 / 100 * a := by gcongr
  linarith [(abs_le.1 ea).1]

/-- the total attenuation coefficient -/
theorem coeff (h : A.Underflowing u ω) (hu : 0 ≤ u) (hu1 : u ≤ 1 / 1000) (hω : 0 ≤ ω) {ε x a b a' b' : ℝ} (hε : 0 ≤ ε)
    (hε1 : ε ≤ 1 / 100) (hx : 0 ≤ x) (ha : 0 ≤ a) (hb : 0 ≤ b) (ea : |a' - a| ≤ ε * a) (eb : |b' - b| ≤ ε * b) :
    0 ≤ A.fl (a' + A.fl (x * b')) ∧ |A.fl (a' + A.fl (x * b')) - (a + x * b)| ≤ (1.002 * ε + 2.05 * u) * (a + x * b) + 2.1 * ω :=
  ⟨h.fl_nonneg (add_nonneg (near_nonneg hε1 ha ea) (h.fl_nonneg (mul_nonneg hx (near_nonneg hε1 hb eb)))),
    h.total_err hu hu1 hω hε hε1 ha (mul_nonneg hx hb) ea (h.part_err hu hx hb eb)⟩

/-- `Phi` with a computed depth -/
theorem phi_err (h : A.Underflowing u ω) (hu : 0 ≤ u) (hu1 : u ≤ 1 / 1000) (hω : 0 ≤ ω) {ε E x ρ ρ' τ : ℝ} {nr r nr' r' : Callable} (hε : 0 ≤ ε)
    (hε1 : ε ≤ 1 / 100) (hx : 0 ≤ x) {a b : ℝ} (ha : nr E = .ok a) (hb : r E = .ok b) (hn : Computes ε E nr nr') (hr : Computes ε E r r')
    (hρ : 0 ≤ ρ) (hρ' : 0 ≤ ρ') (hτ : 0 ≤ τ) (eρ : |ρ' - ρ| ≤ τ) :
    ∃ p p', Ries.layerPhi E ρ nr r x = .ok p ∧ A.layerPhi E ρ' nr' r' x = .ok p' ∧ 0 ≤ p ∧ p ≤ 1 ∧ 0 ≤ p' ∧ p' ≤ 1 ∧
      |p' - p| ≤ 1.1 * ε + 8 * u + 3 * ((a + x * b) * τ) + 5 * (ω * (ρ' + 1)) := by
  obtain ⟨a₁, a', e1, e2, a0, ea⟩ := hn
  obtain ⟨b₁, b', e3, e4, b0, eb⟩ := hr
  obtain rfl : a = a₁ := by rw [ha] at e1; exact Except.ok.inj e1
  obtain rfl : b = b₁ := by rw [hb] at e3; exact Except.ok.inj e3
  obtain ⟨c0, ec⟩ := h.coeff hu hu1 hω hε hε1 hx a0 b0 ea eb
  have hc : 0 ≤ a + x * b := add_nonneg a0 (mul_nonneg hx b0)
  have k := h.factor_err hu hu1 hω hε hε1 hc c0 hρ hρ' hτ ec eρ
  have m := h.factor_mem c0 hρ'
  refine ⟨Real.exp (-(a + x * b) * ρ), _, by simp only [Ries.layerPhi, e1, e3, Bind.bind, Except.bind], by simp only [RArith.layerPhi, e2, e4, Bind.bind, Except.bind], (Real.exp_pos _).le,
    Real.exp_le_one_iff.2 (by rw [neg_mul]; linarith [mul_nonneg hc hρ]), m.1, m.2, ?_⟩
  rw [neg_mul (a + x * b) ρ]
  exact k

/-- `alpha` with a computed depth -/
theorem alpha_err (h : A.Underflowing u ω) (hu : 0 ≤ u) (hu1 : u ≤ 1 / 1000) (hω : 0 ≤ ω) {ε E x ρ ρ' τ : ℝ} {nr r nr' r' : Callable} (hε : 0 ≤ ε)
    (hε1 : ε ≤ 1 / 100) (hx : 0 ≤ x) {a b : ℝ} (ha : nr E = .ok a) (hb : r E = .ok b) (hn : Computes ε E nr nr') (hr : Computes ε E r r')
    (hρ : 0 ≤ ρ) (hρ' : 0 ≤ ρ') (hτ : 0 ≤ τ) (eρ : |ρ' - ρ| ≤ τ) :
    ∃ v v', Ries.layerAlpha E ρ nr r x = .ok v ∧ A.layerAlpha E ρ' nr' r' x = .ok v' ∧ 0 ≤ v ∧ v ≤ x * b ∧ 0 ≤ v' ∧
      |v' - v| ≤ (2.2 * ε + 11 * u + 3 * ((a + x * b) * τ) + 5 * (ω * (ρ' + 1))) * (x * b) + 3 * ω := by
  obtain ⟨p, p', h1, h2, p0, p1, q0, q1, ep⟩ := h.phi_err hu hu1 hω hε hε1 hx ha hb hn hr hρ hρ' hτ eρ
  obtain ⟨b₁, b', e3, e4, b0, eb⟩ := hr
  obtain rfl : b = b₁ := by rw [hb] at e3; exact Except.ok.inj e3
  have hS : 0 ≤ x * b := mul_nonneg hx b0
  have k1 := h.part_err hu hx b0 eb
  have εu : ε * u ≤ 1 / 1000 * ε := by nlinarith
  have k := h.times_err hu hu1 hS le_rfl q0 q1 (by norm_num at *; linarith) hω k1 ep
  refine ⟨x * b * p, _, by simp only [Ries.layerAlpha, e3, h1, Bind.bind, Except.bind], by simp only [RArith.layerAlpha, e4, h2, Bind.bind, Except.bind],
    mul_nonneg hS p0, mul_le_of_le_one_right hS p1, h.fl_nonneg (mul_nonneg (h.fl_nonneg (mul_nonneg hx (near_nonneg hε1 b0 eb))) q0), k.trans ?_⟩
  have : (ε + u + ε * u + (1.1 * ε + 8 * u + 3 * ((a + x * b) * τ) + 5 * (ω * (ρ' + 1))) + 1.1 * u) * (x * b) ≤
      (2.2 * ε + 11 * u + 3 * ((a + x * b) * τ) + 5 * (ω * (ρ' + 1))) * (x * b) := by
    apply mul_le_mul_of_nonneg_right _ hS
    norm_num at *
    linarith
  norm_num at *
  linarith

end RArith.Underflowing

end Ries
