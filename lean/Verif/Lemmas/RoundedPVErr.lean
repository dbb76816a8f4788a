import Verif.Lemmas.RoundedPV
import Verif.Lemmas.RoundedReso

/-! # Rounding errors of pseudo-Voigt cross sections: assembling the bounds -/

namespace Ries

open KN

variable {u : ℝ} {A : PArith}

theorem mkPseudoVoigt_split {k : PhysConst} {init inter : Level} {amu T : ℝ} {final : Option Level} {r : Reso}
    (hr : mkPseudoVoigt k init inter amu T final = .ok r) (ha : amu ≠ 0) :
    ∃ r0 w, Ries.mkResonance k init inter final noRecoil = .ok r0 ∧ inter.width = .ok w ∧
      r = { r0 with dist := (mkPV r0.er w (dopplerWidth k amu T r0.er)).toDist, params := [] } := by
  unfold mkPseudoVoigt at hr
  simp only [bind, Except.bind] at hr
  cases h0 : Ries.mkResonance k init inter final noRecoil with
  | error e => simp [h0] at hr
  | ok r0 =>
    simp only [h0] at hr
    cases h1 : inter.width with
    | error e => simp [h1] at hr
    | ok w =>
      simp only [h1, getDopplerWidth_ok k ha] at hr
      exact ⟨r0, w, rfl, rfl, (Except.ok.inj hr).symm⟩

/-- the product with the integrated cross section -/
theorem product_err {u i P I I' p p' : ℝ} {fl : ℝ → ℝ} (hfl : Rounding u fl) (hu : 0 ≤ u) (hu1 : u ≤ 1 / 100) (hi1 : i ≤ 1 / 100)
    (hp : 0 ≤ p) (hI : |I' - I| ≤ i * |I|) (hP : |p' - p| ≤ P) :
    |fl (I' * p') - I * p| ≤ |I| * (1.03 * P + (1.01 * i + u) * p) := by
  have hP0 : 0 ≤ P := (abs_nonneg _).trans hP
  have hI0 := abs_nonneg I
  have hi0 : 0 ≤ i * |I| := (abs_nonneg _).trans hI
  have s1 : |I' * p' - I * p| ≤ 1.01 * |I| * P + i * |I| * p := by
    have : I' * p' - I * p = (I + (I' - I)) * (p' - p) + (I' - I) * p := by ring
    rw [this]
    refine (abs_add_le _ _).trans ?_
    rw [abs_mul, abs_mul, abs_of_nonneg hp]
    have a : |I + (I' - I)| ≤ 1.01 * |I| := (abs_add_le _ _).trans (by nlinarith)
    have := mul_le_mul a hP (abs_nonneg _) (by positivity)
    have := mul_le_mul_of_nonneg_right hI hp
    linarith
  have f := hfl (I' * p')
  set B := 1.01 * |I| * P + i * |I| * p with hB
  have hB0 : 0 ≤ B := (abs_nonneg _).trans s1
  have a : |I' * p'| ≤ B + |I| * p := by
    have : I' * p' = (I' * p' - I * p) + I * p := by ring
    rw [this]
    refine (abs_add_le _ _).trans ?_
    rw [abs_mul I, abs_of_nonneg hp]
    linarith
  have : fl (I' * p') - I * p = (fl (I' * p') - I' * p') + (I' * p' - I * p) := by ring
  rw [this]
  refine (abs_add_le _ _).trans ?_
  have h1 : u * |I' * p'| ≤ u * (B + |I| * p) := mul_le_mul_of_nonneg_left a hu
  have h2 : u * B ≤ 0.01 * B := mul_le_mul_of_nonneg_right (by linarith) hB0
  have h3 : 0 ≤ |I| * P := by positivity
  have h4 : 0 ≤ i * |I| * p := by positivity
  calc _ ≤ u * (B + |I| * p) + B := by linarith
    _ ≤ 1.01 * B + u * (|I| * p) := by linarith
    _ ≤ _ := by rw [hB]; linarith

theorem abs_exp_sub_one_le_mul (δ : ℝ) : |Real.exp δ - 1| ≤ |δ| * Real.exp |δ| := by
  rcases le_total 0 δ with h | h
  · rw [abs_of_nonneg h, abs_of_nonneg (by linarith [Real.add_one_le_exp δ])]
    have h1 : 1 - δ ≤ Real.exp (-δ) := by linarith [Real.add_one_le_exp (-δ)]
    have h2 : Real.exp (-δ) * Real.exp δ = 1 := by rw [← Real.exp_add]; simp
    nlinarith [Real.exp_pos δ]
  · rw [abs_of_nonpos h, abs_of_nonpos (by linarith [Real.exp_le_one_iff.2 h])]
    have h1 := Real.add_one_le_exp δ
    have h2 : 1 ≤ Real.exp (-δ) := Real.one_le_exp (by linarith)
    nlinarith

/-- the error of the Gauss component, compared to its maximum -/
theorem gauss_tail {δ ρ t X : ℝ} (hδ : |δ| ≤ ρ * t) (ht : 0 ≤ t) (hρ0 : 0 ≤ ρ) (hρ : ρ ≤ 0.005) (hX : 0 ≤ X) :
    (X * Real.exp δ + |Real.exp δ - 1|) * Real.exp (-t) ≤ X + 1.01 * ρ := by
  have h1 : Real.exp δ * Real.exp (-t) ≤ 1 := by
    rw [← Real.exp_add, Real.exp_le_one_iff]
    have := (_root_.abs_le.1 hδ).2
    nlinarith
  have h2 : |Real.exp δ - 1| * Real.exp (-t) ≤ 1.01 * ρ := by
    have a : |Real.exp δ - 1| ≤ ρ * t * Real.exp (ρ * t) :=
      (abs_exp_sub_one_le_mul δ).trans (mul_le_mul hδ (Real.exp_le_exp.2 hδ) (Real.exp_pos _).le ((abs_nonneg _).trans hδ))
    have b : t * Real.exp (ρ * t) * Real.exp (-t) ≤ 1.01 := by
      rw [mul_assoc, ← Real.exp_add]
      have c := Real.add_one_le_exp (-(ρ * t + -t))
      rw [Real.exp_neg] at c
      have e := Real.exp_pos (ρ * t + -t)
      have f : t ≤ 1.01 * (Real.exp (ρ * t + -t))⁻¹ := by nlinarith
      calc t * Real.exp (ρ * t + -t) ≤ 1.01 * (Real.exp (ρ * t + -t))⁻¹ * Real.exp (ρ * t + -t) := mul_le_mul_of_nonneg_right f e.le
        _ = 1.01 := by field_simp
    calc _ ≤ ρ * t * Real.exp (ρ * t) * Real.exp (-t) := mul_le_mul_of_nonneg_right a (Real.exp_pos _).le
      _ = ρ * (t * Real.exp (ρ * t) * Real.exp (-t)) := by ring
      _ ≤ ρ * 1.01 := mul_le_mul_of_nonneg_left b hρ0
      _ = _ := by ring
  have h3 : X * (Real.exp δ * Real.exp (-t)) ≤ X * 1 := mul_le_mul_of_nonneg_left h1 hX
  calc _ = X * (Real.exp δ * Real.exp (-t)) + |Real.exp δ - 1| * Real.exp (-t) := by ring
    _ ≤ _ := by linarith

/-- relative error of the density near the resonance -/
theorem near_bound {u a b τ v η g L γ P : ℝ} (hu : 0 ≤ u) (ha : 0 ≤ a) (hb : 0 ≤ b) (hτ : 0 ≤ τ) (hv : 0 ≤ v) (hη : 0 ≤ η) (hg : 0 ≤ g)
    (hL : 0 ≤ L) (hgL : g ≤ 2.1 * L) (hγ0 : 0 ≤ γ) (hγ : γ ≤ 1.0152 * (a + b + 36 * u) + 1.0151 * τ)
    (hs : 50 * a + 26 * b + 670 * u + 1.1 * τ ≤ 1 / 200)
    (hP : P = 1.03 * ((u * v + 1.01 * (2.1 * (6 * a + 3 * b + 73 * u)) * η) * (g + γ * g) + v * (γ * g) +
      (1.01 * (2.1 * (6 * a + 3 * b + 73 * u)) + 1.01 * (3 * a + 3 * b + 76 * u)) * η * L) + 2.01 * u * (v * g + η * L)) :
    1.03 * P + (1.01 * (1.01 * (a + 20 * u)) + u) * (v * g + η * L) ≤ (50 * a + 26 * b + 670 * u + 1.1 * τ) * (v * g + η * L) := by
  have hγ1 : γ ≤ 0.02 := by linarith
  have hvg : 0 ≤ v * g := by positivity
  have hηL : 0 ≤ η * L := by positivity
  have hηg : η * g ≤ 2.1 * (η * L) := by nlinarith
  set h := 2.1 * (6 * a + 3 * b + 73 * u) with hh
  set ℓ := 1.01 * (3 * a + 3 * b + 76 * u) with hℓ
  have hh0 : 0 ≤ h := by positivity
  have hℓ0 : 0 ≤ ℓ := by positivity
  have e1 : (u * v + 1.01 * h * η) * (g + γ * g) ≤ 1.02 * u * (v * g) + 2.1635 * h * (η * L) := by
    have i1 : (u * v + 1.01 * h * η) * (g + γ * g) = (1 + γ) * (u * (v * g) + 1.01 * h * (η * g)) := by ring
    have i2 : u * (v * g) + 1.01 * h * (η * g) ≤ u * (v * g) + 1.01 * h * (2.1 * (η * L)) := by gcongr
    have i3 : 0 ≤ u * (v * g) + 1.01 * h * (2.1 * (η * L)) := by positivity
    rw [i1]
    calc (1 + γ) * (u * (v * g) + 1.01 * h * (η * g)) ≤ (1 + γ) * (u * (v * g) + 1.01 * h * (2.1 * (η * L))) := by gcongr
      _ ≤ 1.02 * (u * (v * g) + 1.01 * h * (2.1 * (η * L))) := mul_le_mul_of_nonneg_right (by linarith) i3
      _ ≤ _ := by
        have : 0 ≤ h * (η * L) := by positivity
        linarith
  have e2 : P ≤ 1.03 * ((1.02 * u + γ) * (v * g) + (3.1735 * h + ℓ) * (η * L)) + 2.01 * u * (v * g + η * L) := by
    rw [hP]
    have : (1.01 * h + ℓ) * η * L = (1.01 * h + ℓ) * (η * L) := by ring
    rw [this]
    have : v * (γ * g) = γ * (v * g) := by ring
    rw [this]
    linarith
  have c1 : 1.03 * (1.03 * (1.02 * u + γ) + 2.01 * u) + (1.01 * (1.01 * (a + 20 * u)) + u) ≤ 50 * a + 26 * b + 670 * u + 1.1 * τ := by linarith
  have c2 : 1.03 * (1.03 * (3.1735 * h + ℓ) + 2.01 * u) + (1.01 * (1.01 * (a + 20 * u)) + u) ≤ 50 * a + 26 * b + 670 * u + 1.1 * τ := by
    rw [hh, hℓ]; linarith
  have d1 := mul_le_mul_of_nonneg_right c1 hvg
  have d2 := mul_le_mul_of_nonneg_right c2 hηL
  calc _ ≤ 1.03 * (1.03 * ((1.02 * u + γ) * (v * g) + (3.1735 * h + ℓ) * (η * L)) + 2.01 * u * (v * g + η * L)) +
        (1.01 * (1.01 * (a + 20 * u)) + u) * (v * g + η * L) := by linarith
    _ = (1.03 * (1.03 * (1.02 * u + γ) + 2.01 * u) + (1.01 * (1.01 * (a + 20 * u)) + u)) * (v * g) +
        (1.03 * (1.03 * (3.1735 * h + ℓ) + 2.01 * u) + (1.01 * (1.01 * (a + 20 * u)) + u)) * (η * L) := by ring
    _ ≤ _ := by linarith

/-- error of the density at any energy -/
theorem far_bound {u a b v η g L G κ g0 L0 P : ℝ} (hu : 0 ≤ u) (ha : 0 ≤ a) (hb : 0 ≤ b) (hv : 0 ≤ v) (hη : 0 ≤ η) (hg : 0 ≤ g)
    (hL : 0 ≤ L) (hgL : g ≤ 2.1 * L) (hg0 : 0 ≤ g0) (hL0 : 0 ≤ L0) (hgL0 : g0 ≤ 2.1 * L0) (hG : G ≤ κ * g0) (hκ0 : 0 ≤ κ)
    (hκ : κ = 1.01 * (a + b + 36 * u) + 1.01 * (1.01 * (2 * a + 2 * b + 62 * u)))
    (hs : 50 * a + 26 * b + 670 * u ≤ 1 / 200)
    (hP : P = 1.03 * ((u * v + 1.01 * (2.1 * (6 * a + 3 * b + 73 * u)) * η) * (g + G) + v * G +
      (1.01 * (2.1 * (6 * a + 3 * b + 73 * u)) + 1.01 * (3 * a + 3 * b + 76 * u)) * η * L) + 2.01 * u * (v * g + η * L)) :
    1.03 * P + (1.01 * (1.01 * (a + 20 * u)) + u) * (v * g + η * L) ≤
      (50 * a + 26 * b + 670 * u) * (v * g + η * L) + (4 * a + 4 * b + 115 * u) * (v * g0 + η * L0) := by
  have hvg : 0 ≤ v * g := by positivity
  have hηL : 0 ≤ η * L := by positivity
  have hvg0 : 0 ≤ v * g0 := by positivity
  have hηL0 : 0 ≤ η * L0 := by positivity
  have hηg : η * g ≤ 2.1 * (η * L) := by nlinarith
  have hηg0 : η * g0 ≤ 2.1 * (η * L0) := by nlinarith
  set h := 2.1 * (6 * a + 3 * b + 73 * u) with hh
  set ℓ := 1.01 * (3 * a + 3 * b + 76 * u) with hℓ
  have hh0 : 0 ≤ h := by positivity
  have hℓ0 : 0 ≤ ℓ := by positivity
  have hh1 : h ≤ 0.002 := by rw [hh]; linarith
  have hu1 : u ≤ 0.01 := by linarith
  have e1 : (u * v + 1.01 * h * η) * (g + G) + v * G ≤ u * (v * g) + 2.121 * h * (η * L) + 1.01 * κ * (v * g0 + η * L0) := by
    have hw : 0 ≤ u * v + 1.01 * h * η + v := by positivity
    have i1 : (u * v + 1.01 * h * η) * (g + G) + v * G = u * (v * g) + 1.01 * h * (η * g) + (u * v + 1.01 * h * η + v) * G := by ring
    have i2 : (u * v + 1.01 * h * η + v) * G ≤ (u * v + 1.01 * h * η + v) * (κ * g0) := by gcongr
    have i3 : (u * v + 1.01 * h * η + v) * (κ * g0) = κ * ((1 + u) * (v * g0) + 1.01 * h * (η * g0)) := by ring
    have i4 : (1 + u) * (v * g0) + 1.01 * h * (η * g0) ≤ 1.01 * (v * g0 + η * L0) := by
      have j1 : u * (v * g0) ≤ 0.01 * (v * g0) := by gcongr
      have j2 : h * (η * g0) ≤ 0.002 * (2.1 * (η * L0)) := by gcongr
      linarith
    have i5 : κ * ((1 + u) * (v * g0) + 1.01 * h * (η * g0)) ≤ κ * (1.01 * (v * g0 + η * L0)) := by gcongr
    have i6 : 1.01 * h * (η * g) ≤ 1.01 * h * (2.1 * (η * L)) := by gcongr
    rw [i1]
    linarith
  have e2 : P ≤ 1.03 * (u * (v * g) + (3.131 * h + ℓ) * (η * L) + 1.01 * κ * (v * g0 + η * L0)) + 2.01 * u * (v * g + η * L) := by
    rw [hP]
    have : (1.01 * h + ℓ) * η * L = (1.01 * h + ℓ) * (η * L) := by ring
    rw [this]
    linarith
  have c1 : 1.03 * (1.03 * u + 2.01 * u) + (1.01 * (1.01 * (a + 20 * u)) + u) ≤ 50 * a + 26 * b + 670 * u := by linarith
  have c2 : 1.03 * (1.03 * (3.131 * h + ℓ) + 2.01 * u) + (1.01 * (1.01 * (a + 20 * u)) + u) ≤ 50 * a + 26 * b + 670 * u := by
    rw [hh, hℓ]; linarith
  have c3 : 1.03 * (1.03 * (1.01 * κ)) ≤ 4 * a + 4 * b + 115 * u := by rw [hκ]; linarith
  have d1 := mul_le_mul_of_nonneg_right c1 hvg
  have d2 := mul_le_mul_of_nonneg_right c2 hηL
  have d3 := mul_le_mul_of_nonneg_right c3 (add_nonneg hvg0 hηL0)
  calc _ ≤ 1.03 * (1.03 * (u * (v * g) + (3.131 * h + ℓ) * (η * L) + 1.01 * κ * (v * g0 + η * L0)) + 2.01 * u * (v * g + η * L)) +
        (1.01 * (1.01 * (a + 20 * u)) + u) * (v * g + η * L) := by linarith
    _ = (1.03 * (1.03 * u + 2.01 * u) + (1.01 * (1.01 * (a + 20 * u)) + u)) * (v * g) +
        (1.03 * (1.03 * (3.131 * h + ℓ) + 2.01 * u) + (1.01 * (1.01 * (a + 20 * u)) + u)) * (η * L) +
        1.03 * (1.03 * (1.01 * κ)) * (v * g0 + η * L0) := by ring
    _ ≤ _ := by linarith

/-- The exact and the rounded cross section; the error of the Gauss component is left open. -/
theorem PArith.eval_err (hA : A.Accurate u) (hu : 0 ≤ u) {k : PhysConst} {init inter : Level} {amu T w Γ : ℝ} {final : Option Level} {r : Reso}
    {m : ℕ} (hr : mkPseudoVoigt k init inter amu T final = .ok r) (hl : inter.Physical) (ha : 0 < amu) (hT : 0 < T)
    (hE : init.exc < inter.exc) (hex : A.fl (inter.exc - init.exc) = inter.exc - init.exc) (hw : inter.width = .ok w)
    (hΓ : Γ = (mkPV r.er w (dopplerWidth k amu T r.er)).bigGamma) (hm : |Real.log Γ| ≤ m)
    (hN : (50 * inter.channels + 26 * m + 670 : ℝ) * u ≤ 1 / 200) :
    ∃ (η I : ℝ) (g L : ℝ → ℝ), 0 ≤ η ∧ 0 ≤ 1 - η ∧ (∀ E, 0 ≤ g E ∧ 0 ≤ L E ∧ g E ≤ 2.1 * L E ∧
        g E = g r.er * Real.exp (-(4 * Real.log 2 * ((E - r.er) / Γ) ^ 2))) ∧
      (∀ E, r.call E = .ok (.fin (I * ((1 - η) * g E + η * L E)))) ∧
      ∀ E, ∃ δ σ' G P, |δ| ≤ 1.01 * (2 * (inter.channels * u) + 2 * (m * u) + 62 * u) * (4 * Real.log 2 * ((E - r.er) / Γ) ^ 2) ∧
        A.pseudoVoigt k init inter amu T final E = .ok (.fin σ') ∧
        G = (1.01 * (inter.channels * u + m * u + 36 * u) * Real.exp δ + |Real.exp δ - 1|) * g E ∧
        P = 1.03 * ((u * (1 - η) + 1.01 * (2.1 * (6 * (inter.channels * u) + 3 * (m * u) + 73 * u)) * η) * (g E + G) + (1 - η) * G +
          (1.01 * (2.1 * (6 * (inter.channels * u) + 3 * (m * u) + 73 * u)) + 1.01 * (3 * (inter.channels * u) + 3 * (m * u) + 76 * u)) *
            η * L E) + 2.01 * u * ((1 - η) * g E + η * L E) ∧
        |σ' - I * ((1 - η) * g E + η * L E)| ≤ |I| * (1.03 * P + (1.01 * (1.01 * (inter.channels * u + 20 * u)) + u) *
          ((1 - η) * g E + η * L E)) := by
  obtain ⟨r0, w', h0, hw', rfl⟩ := mkPseudoVoigt_split hr ha.ne'
  rw [hw] at hw'; cases hw'
  simp only at hΓ ⊢
  subst hΓ
  have hNn : (0 : ℝ) ≤ inter.channels := Nat.cast_nonneg _
  have hmn : (0 : ℝ) ≤ m := Nat.cast_nonneg _
  have hlog := Real.log_pos one_lt_two
  have her : 0 < r0.er := by rw [(mkResonance_inv h0).1]; show 0 < inter.exc - init.exc; linarith
  have hd : 0 < dopplerWidth k amu T r0.er := by
    unfold dopplerWidth
    have := k.u_pos
    have := k.kB_pos
    positivity
  have hNu : 0 ≤ inter.channels * u := by positivity
  have hmu : 0 ≤ m * u := by positivity
  have hu1 : u ≤ 1 / 100 := by linarith
  have hu1' : u < 1 := by linarith
  obtain ⟨ics, eics, rics⟩ := RArith.resonance_rel hA.toAccurate hu hu1 hl hex h0
  obtain ⟨wr, ewr, rwr, hw0⟩ := RArith.width_rel hA.fl hu hu1' hl hw
  obtain ⟨d', ed, rd⟩ := RArith.doppler_rel (A := A.toRArith) hA.toAccurate hu hu1' k ha hT.le r0.er
  generalize dopplerWidth k amu T r0.er = d at *
  have hok : PV.Ok w d := ⟨hw0, hd.le, .inr hd⟩
  have hs : 0 < (mkPV r0.er w d).normScale := hok.normScale_pos
  have hc : 0 < (mkPV r0.er w d).cauchyScale := hok.cauchyScale_pos
  have hηb := hok.eta_bounds (er := r0.er)
  have hΓp := hok.gamma_pos (er := r0.er)
  have hg0 : ∀ E, 0 ≤ normPdf r0.er (mkPV r0.er w d).normScale E := fun E => by unfold normPdf; positivity
  have hL0 : ∀ E, 0 ≤ cauchyPdf r0.er (mkPV r0.er w d).cauchyScale E := fun E => by
    have := Real.pi_pos
    unfold cauchyPdf; positivity
  have et : ∀ E, ((E - r0.er) / (mkPV r0.er w d).normScale) ^ 2 / 2 = 4 * Real.log 2 * ((E - r0.er) / (mkPV r0.er w d).bigGamma) ^ 2 := by
    intro E
    show ((E - r0.er) / ((mkPV r0.er w d).bigGamma / (2 * Real.sqrt (Real.log 2)) / Real.sqrt 2)) ^ 2 / 2 = _
    have hq := sqrt_log_two_pos
    have q2 : Real.sqrt (Real.log 2) ^ 2 = Real.log 2 := Real.sq_sqrt hlog.le
    have r2 : Real.sqrt 2 ^ 2 = 2 := Real.sq_sqrt (by norm_num)
    rw [div_pow, div_pow, div_pow, div_pow, mul_pow, q2, r2]
    field_simp
    ring
  have hv : 0 ≤ 1 - (mkPV r0.er w d).eta := by linarith [hηb.2]
  refine ⟨(mkPV r0.er w d).eta, r0.ics, normPdf r0.er (mkPV r0.er w d).normScale, cauchyPdf r0.er (mkPV r0.er w d).cauchyScale,
    hηb.1, hv, fun E => ⟨hg0 E, hL0 E, gauss_le_cauchy hΓp r0.er E, ?_⟩, fun E => ?_, fun E => ?_⟩
  · rw [← et, normPdf, normPdf, sub_self, zero_div, zero_pow two_ne_zero, neg_zero, zero_div, Real.exp_zero,
      show -((E - r0.er) / (mkPV r0.er w d).normScale) ^ 2 / 2 = -(((E - r0.er) / (mkPV r0.er w d).normScale) ^ 2 / 2) by ring]
    ring
  · simp only [Reso.call, PV.toDist, PV.pdf, bind, Except.bind, hok.valid, if_true, Fl.smul]
    rfl
  · obtain ⟨δ, p', G, hδ, hp', hG, hP⟩ := PArith.pdf_err (er := r0.er) hA hu hw0 hd rwr rd hm hN E
    rw [et] at hδ
    have eics' := rics.abs_le hu (by push_cast; linarith)
    have hpdf : (mkPV r0.er w d).pdfR E = (1 - (mkPV r0.er w d).eta) * normPdf r0.er (mkPV r0.er w d).normScale E +
      (mkPV r0.er w d).eta * cauchyPdf r0.er (mkPV r0.er w d).cauchyScale E := rfl
    have hpn : 0 ≤ (mkPV r0.er w d).pdfR E := by rw [hpdf]; exact add_nonneg (mul_nonneg hv (hg0 E)) (mul_nonneg hηb.1 (hL0 E))
    have hfin := product_err hA.fl hu hu1 (by push_cast; linarith) hpn eics' hP
    refine ⟨δ, A.fl (ics * p'), G, _, hδ.trans (le_of_eq (by ring)), ?_, hG.trans (by ring), rfl, ?_⟩
    · simp only [PArith.pseudoVoigt, eics, ewr, ed, hp', bind, Except.bind]
    · rw [hpdf] at hfin
      refine hfin.trans (le_of_eq ?_)
      push_cast
      ring

end Ries
