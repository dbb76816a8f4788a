import Verif.Lemmas.RoundedComptonAngles
import Verif.Lemmas.KleinNishina
import Mathlib.Analysis.Real.Pi.Bounds

/-! # Lemmas on energy-differential Compton cross sections in floating point -/

namespace Ries.TArith

variable {T : TArith} {k : PhysConst} {s : KN} {u v E Ep θ φ : ℝ}

/-- the computed cosine of the scattering angle -/
theorem cosTheta_err (hT : T.Accurate u) (hu : 0 ≤ u) (hu1 : u ≤ 1 / 1000) (hE : 0 < E)
    (h0 : 0 ≤ (E / Ep - 1) * k.me / E) (h2 : (E / Ep - 1) * k.me / E ≤ 2) :
    |T.cosTheta k E Ep - (1 - (E / Ep - 1) * k.me / E)| ≤ ((1.1 : ℝ) * (k.me / E) + (9.7 : ℝ)) * u := by
  unfold cosTheta
  have hme := k.me_pos
  have hy : 0 < k.me / E := div_pos hme hE
  -- all quantities in units of `E / me`
  set D := E / Ep with hD
  have e1 := hT.fl D
  generalize T.fl D = D' at *
  have e2 := hT.fl (D' - 1)
  generalize T.fl (D' - 1) = d' at *
  have e3 := hT.fl (d' * k.me)
  generalize T.fl (d' * k.me) = m' at *
  have e4 := hT.fl (m' / E)
  generalize T.fl (m' / E) = q' at *
  have e5 := hT.fl (1 - q')
  generalize T.fl (1 - q') = c' at *
  set q := (D - 1) * k.me / E with hq
  set y := k.me / E with hyd
  have hqy : q = (D - 1) * y := by rw [hq, hyd]; ring
  have hD1 : 0 ≤ D - 1 := by
    rw [hqy] at h0
    exact nonneg_of_mul_nonneg_left h0 hy
  rw [abs_of_nonneg (by linarith : 0 ≤ D)] at e1
  have f2 : |d' - (D - 1)| ≤ (1.01 : ℝ) * u + (2.1 : ℝ) * u * (D - 1) := by
    have g1 : |D' - 1 - (D - 1)| ≤ u * D := by rw [show D' - 1 - (D - 1) = D' - D by ring]; exact e1
    have g2 : |D' - 1| ≤ (D - 1) + u * D := by
      have := abs_add_le (D' - 1 - (D - 1)) (D - 1)
      rw [sub_add_cancel, abs_of_nonneg hD1] at this
      linarith
    have g3 := abs_sub_le d' (D' - 1) (D - 1)
    have g4 : u * |D' - 1| ≤ u * ((D - 1) + u * D) := mul_le_mul_of_nonneg_left g2 hu
    have g5 : u * (u * D) ≤ (0.001 : ℝ) * (u * D) := by
      have : 0 ≤ u * D := mul_nonneg hu (by linarith)
      nlinarith
    nlinarith
  have f3 : |m' - (D - 1) * k.me| ≤ k.me * ((1.02 : ℝ) * u + (3.2 : ℝ) * u * (D - 1)) := by
    have g1 : |d' * k.me - (D - 1) * k.me| ≤ k.me * ((1.01 : ℝ) * u + (2.1 : ℝ) * u * (D - 1)) := by
      rw [← sub_mul, abs_mul, abs_of_pos hme, mul_comm]; gcongr
    have g2 : |d' * k.me| ≤ k.me * ((D - 1) + ((1.01 : ℝ) * u + (2.1 : ℝ) * u * (D - 1))) := by
      have := abs_add_le (d' * k.me - (D - 1) * k.me) ((D - 1) * k.me)
      rw [sub_add_cancel, abs_of_nonneg (mul_nonneg hD1 hme.le)] at this
      linarith
    have g3 := abs_sub_le m' (d' * k.me) ((D - 1) * k.me)
    have g4 := mul_le_mul_of_nonneg_left g2 hu
    have g5 : u * (k.me * ((D - 1) + ((1.01 : ℝ) * u + (2.1 : ℝ) * u * (D - 1)))) ≤
        k.me * ((0.01 : ℝ) * u + (1.1 : ℝ) * u * (D - 1)) := by
      rw [show u * (k.me * ((D - 1) + ((1.01 : ℝ) * u + (2.1 : ℝ) * u * (D - 1)))) =
        k.me * (u * ((D - 1) + ((1.01 : ℝ) * u + (2.1 : ℝ) * u * (D - 1)))) by ring]
      refine mul_le_mul_of_nonneg_left ?_ hme.le
      have : 0 ≤ u * (D - 1) := mul_nonneg hu hD1
      nlinarith
    linarith
  have f4 : |q' - q| ≤ (1.03 : ℝ) * u * y + (4.3 : ℝ) * u * q := by
    have g1 : |m' / E - q| ≤ (1.02 : ℝ) * u * y + (3.2 : ℝ) * u * q := by
      rw [hq, ← sub_div, abs_div, abs_of_pos hE, div_le_iff₀ hE]
      refine f3.trans (le_of_eq ?_)
      rw [hyd]; field_simp
    have g2 : |m' / E| ≤ q + ((1.02 : ℝ) * u * y + (3.2 : ℝ) * u * q) := by
      have := abs_add_le (m' / E - q) q
      rw [sub_add_cancel, abs_of_nonneg h0] at this
      linarith only [this, g1]
    have g3 := abs_sub_le q' (m' / E) q
    have g4 := mul_le_mul_of_nonneg_left g2 hu
    have g5 : 0 ≤ u * y := mul_nonneg hu hy.le
    have g6 : 0 ≤ u * q := mul_nonneg hu h0
    have g7 : u * (u * y) ≤ (0.001 : ℝ) * (u * y) := by nlinarith only [g5, hu1]
    have g8 : u * (u * q) ≤ (0.001 : ℝ) * (u * q) := by nlinarith only [g6, hu1]
    generalize |m' / E - q| = z1 at *
    generalize |q' - m' / E| = z2 at *
    generalize |m' / E| = z3 at *
    nlinarith only [g1, g2, g3, g4, g5, g6, g7, g8, e4]
  have g1 : |1 - q' - (1 - q)| ≤ (1.03 : ℝ) * u * y + (4.3 : ℝ) * u * q := by
    rw [show 1 - q' - (1 - q) = -(q' - q) by ring, abs_neg]; exact f4
  have g2 : |1 - q'| ≤ 1 + ((1.03 : ℝ) * u * y + (4.3 : ℝ) * u * q) := by
    have := abs_add_le (1 - q' - (1 - q)) (1 - q)
    rw [sub_add_cancel] at this
    have h : |1 - q| ≤ 1 := abs_le.mpr ⟨by linarith, by linarith⟩
    linarith
  have g3 := abs_sub_le c' (1 - q') (1 - q)
  have g4 := mul_le_mul_of_nonneg_left g2 hu
  have g5 : 0 ≤ u * y := mul_nonneg hu hy.le
  have g6 : u * q ≤ u * 2 := mul_le_mul_of_nonneg_left h2 hu
  have g7 : u * (u * y) ≤ (0.001 : ℝ) * (u * y) := by nlinarith
  have g8 : u * (u * q) ≤ (0.001 : ℝ) * (u * q) := by nlinarith [mul_nonneg hu h0]
  nlinarith

/-- The energy ratio at two angles with almost the same cosine. -/
theorem ratio_continuous {θ₀ : ℝ} (hE : 0 < E) (hv : 0 ≤ v) (hv' : v ≤ 1 / 1000)
    (h2 : E / k.me * |Real.cos θ - Real.cos θ₀| ≤ 23 * v) :
    RE v (23.6 : ℝ) (KN.EpOverE k E θ) (KN.EpOverE k E θ₀) := by
  have hxp : 0 < E / k.me := div_pos hE k.me_pos
  unfold KN.EpOverE
  have hq : 0 ≤ E / k.me * (1 - Real.cos θ₀) := mul_nonneg hxp.le (by linarith [Real.cos_le_one θ₀])
  have h : RE v 23 (1 + E / k.me * (1 - Real.cos θ)) (1 + E / k.me * (1 - Real.cos θ₀)) := by
    unfold RE
    rw [show 1 + E / k.me * (1 - Real.cos θ) - (1 + E / k.me * (1 - Real.cos θ₀)) =
      -(E / k.me * (Real.cos θ - Real.cos θ₀)) by ring, abs_neg, abs_mul, abs_of_pos hxp,
      abs_of_nonneg (by linarith : 0 ≤ 1 + E / k.me * (1 - Real.cos θ₀))]
    refine h2.trans ?_
    have : 0 ≤ 23 * v * (E / k.me * (1 - Real.cos θ₀)) := by positivity
    linarith
  exact h.inv hv hv' (by norm_num) (by norm_num) (by linarith) (by norm_num)

/-- The angular cross section at two angles with almost the same cosine. -/
theorem unpol_continuous {θ₀ : ℝ} (hE : 0 < E) (hv : 0 ≤ v) (hv' : v ≤ 1 / 1000)
    (h1 : |Real.cos θ - Real.cos θ₀| ≤ 23 * v) (h2 : E / k.me * |Real.cos θ - Real.cos θ₀| ≤ 23 * v) :
    RE v 148 (s.dOmegaUnpol k E θ) (s.dOmegaUnpol k E θ₀) := by
  have hxp : 0 < E / k.me := div_pos hE k.me_pos
  have hp := EpOverE_pos' (k := k) (θ := θ₀) hE
  unfold KN.dOmegaUnpol
  simp only
  have hr := ratio_continuous hE hv hv' h2
  have hS : |Real.sin θ ^ 2 - Real.sin θ₀ ^ 2| ≤ 46 * v := by
    rw [Real.sin_sq, Real.sin_sq, show 1 - Real.cos θ ^ 2 - (1 - Real.cos θ₀ ^ 2) =
      -((Real.cos θ - Real.cos θ₀) * (Real.cos θ + Real.cos θ₀)) by ring, abs_neg, abs_mul]
    have : |Real.cos θ + Real.cos θ₀| ≤ 2 :=
      (abs_add_le _ _).trans (by linarith [Real.abs_cos_le_one θ, Real.abs_cos_le_one θ₀])
    have := mul_le_mul h1 this (abs_nonneg _) (by linarith)
    linarith
  generalize KN.EpOverE k E θ = r at *
  generalize KN.EpOverE k E θ₀ = r₀ at *
  have hs1 : Real.sin θ₀ ^ 2 ≤ 1 := Real.sin_sq_le_one θ₀
  generalize Real.sin θ ^ 2 = S at *
  generalize Real.sin θ₀ ^ 2 = S₀ at *
  have ht : RE v (24.3 : ℝ) (r + 1 / r) (r₀ + 1 / r₀) :=
    (hr.mono hv (by norm_num)).add (hr.inv hv hv' (by norm_num) (by norm_num) hp.ne' (by norm_num : (23.6 : ℝ) ≤ 24.3 * (1 - 23.6 / 1000))) hp.le (by positivity)
  have h2' := two_le_add_inv hp
  generalize r + 1 / r = t at *
  generalize r₀ + 1 / r₀ = t₀ at *
  have hB : RE v (94.7 : ℝ) (t - S) (t₀ - S₀) := by
    unfold RE at ht ⊢
    rw [abs_of_nonneg (by linarith : 0 ≤ t₀)] at ht
    rw [abs_of_nonneg (by linarith : 0 ≤ t₀ - S₀)]
    have h3 : |t - S - (t₀ - S₀)| ≤ |t - t₀| + |S - S₀| := by
      rw [show t - S - (t₀ - S₀) = (t - t₀) - (S - S₀) by ring]
      exact abs_sub _ _
    nlinarith
  have f0 : RE v 0 (Real.pi * s.scale k) (Real.pi * s.scale k) := RE.refl _ _
  have f1 := f0.mul hv hv' (by norm_num) (by norm_num) hr (e := (23.6 : ℝ)) (by norm_num)
  have f2 := f1.mul hv hv' (by norm_num) (by norm_num) hr (e := (47.8 : ℝ)) (by norm_num)
  have f3 := f2.mul hv hv' (by norm_num) (by norm_num) hB (e := (147.1 : ℝ)) (by norm_num)
  exact f3.mono hv (by norm_num)

theorem dEp_arith {x y u v a b c d : ℝ} (hx : 0 < x) (hy : 0 < y) (hxy : x * y = 1) (hu : 0 ≤ u) (hv : v = (x + 1 + y) * u)
    (h1 : a ≤ b + c) (h2 : b ≤ d) (h3 : d ≤ 4 * u * (3.15 : ℝ)) (h4 : c ≤ ((1.1 : ℝ) * y + (9.7 : ℝ)) * u) :
    a ≤ 23 * v ∧ x * a ≤ 23 * v := by
  have hx0 : 0 ≤ x * u := by positivity
  have hy0 : 0 ≤ y * u := by positivity
  have h5 : a ≤ (1.1 : ℝ) * (y * u) + (22.3 : ℝ) * u := by linarith
  have h6 := mul_le_mul_of_nonneg_left h5 hx.le
  have e : x * ((1.1 : ℝ) * (y * u) + (22.3 : ℝ) * u) = (1.1 : ℝ) * (x * y) * u + (22.3 : ℝ) * (x * u) := by ring
  rw [e, hxy] at h6
  constructor
  · rw [hv]; linarith
  · rw [hv]; linarith

theorem dEp_arith' {x y u : ℝ} (hx : 0 < x) (hy : 0 < y) (hu : 0 ≤ u) :
    u ≤ (x + 1 + y) * u ∧ (x + 1) * u ≤ (x + 1 + y) * u := by
  have hx0 : 0 ≤ x * u := by positivity
  have hy0 : 0 ≤ y * u := by positivity
  constructor <;> linarith

/-- the cosine of the computed scattering angle -/
theorem cos_theta_err (hT : T.Accurate u) (hu : 0 ≤ u) (hE : 0 < E) (h1 : KN.comptonEdge k E ≤ Ep) (h2 : Ep ≤ E)
    (hv' : (E / k.me + 1 + k.me / E) * u ≤ 1 / 1000) (hc : |T.cosTheta k E Ep| ≤ 1) :
    |Real.cos (T.arccos (T.cosTheta k E Ep)) - Real.cos (KN.theta k E Ep)| ≤ 23 * ((E / k.me + 1 + k.me / E) * u) ∧
    E / k.me * |Real.cos (T.arccos (T.cosTheta k E Ep)) - Real.cos (KN.theta k E Ep)| ≤
      23 * ((E / k.me + 1 + k.me / E) * u) := by
  have hx : 0 < E / k.me := div_pos hE k.me_pos
  have hy : 0 < k.me / E := div_pos k.me_pos hE
  have hxy : E / k.me * (k.me / E) = 1 := by
    have := k.me_pos.ne'
    field_simp
  set v := (E / k.me + 1 + k.me / E) * u with hv
  obtain ⟨huv, hxu⟩ : u ≤ v ∧ (E / k.me + 1) * u ≤ v := dEp_arith' hx hy hu
  obtain ⟨hp, ha, hb⟩ := KN.theta_cos k hE h1 h2
  have aux : ∀ q : ℝ, 1 - q ≤ 1 → -1 ≤ 1 - q → 0 ≤ q ∧ q ≤ 2 := fun q _ _ => ⟨by linarith, by linarith⟩
  have hcos := cosTheta_err hT hu (huv.trans hv') hE (aux _ hb ha).1 (aux _ hb ha).2
  set c₀ := 1 - (E / Ep - 1) * k.me / E with hc₀
  have hθ₀ : Real.cos (KN.theta k E Ep) = c₀ := by unfold KN.theta; exact Real.cos_arccos ha hb
  have hac := hT.arccos _ hc
  have hcl := Real.cos_arccos (abs_le.mp hc).1 (abs_le.mp hc).2
  generalize T.cosTheta k E Ep = c' at *
  generalize T.arccos c' = θ' at *
  rw [hθ₀]
  refine dEp_arith hx hy hxy hu hv (abs_sub_le (Real.cos θ') c' c₀) (d := |θ' - Real.arccos c'|) ?_ ?_ hcos
  · have := Real.abs_cos_sub_cos_le θ' (Real.arccos c')
    rwa [hcl] at this
  · refine hac.trans (mul_le_mul_of_nonneg_left ?_ (by positivity))
    rw [abs_of_nonneg (Real.arccos_nonneg _)]
    exact (Real.arccos_le_pi _).trans Real.pi_lt_d2.le

theorem dEp_re (hT : T.Accurate u) (hu : 0 ≤ u) (hE : 0 < E) (hm : s.mc2 ≠ 0) (h1 : KN.comptonEdge k E ≤ Ep) (h2 : Ep ≤ E)
    (hv' : (E / k.me + 1 + k.me / E) * u ≤ 1 / 1000) (hc : |T.cosTheta k E Ep| ≤ 1) :
    ∃ σ, T.dEp k s E Ep = .fin σ ∧ RE ((E / k.me + 1 + k.me / E) * u) 256 σ (s.dEp k E Ep) := by
  refine ⟨T.fl (T.fl (T.dOmegaUnpol k s E (T.arccos (T.cosTheta k E Ep)) * k.me) / T.fl (Ep * Ep)), ?_, ?_⟩
  · unfold TArith.dEp TArith.theta
    rw [if_pos hc]
  have hx : 0 < E / k.me := div_pos hE k.me_pos
  have hy : 0 < k.me / E := div_pos k.me_pos hE
  set v := (E / k.me + 1 + k.me / E) * u with hv
  have hv0 : 0 ≤ v := by positivity
  obtain ⟨huv, hxu⟩ : u ≤ v ∧ (E / k.me + 1) * u ≤ v := dEp_arith' hx hy hu
  obtain ⟨hp, -, -⟩ := KN.theta_cos k hE h1 h2
  have h45 := cos_theta_err hT hu hE h1 h2 hv' hc
  generalize T.arccos (T.cosTheta k E Ep) = θ' at *
  obtain ⟨h4, h5⟩ := h45
  have hA := unpol_continuous (s := s) hE hv0 hv' h4 h5
  have hB : RE v (249.1 : ℝ) (T.dOmegaUnpol k s E θ') (s.dOmegaUnpol k E (KN.theta k E Ep)) :=
    hA.round hv0 hv' (by norm_num) le_rfl (unpol_re hT hu hE hm hv' hxu) (by norm_num) (by norm_num)
  have hC : RE v (250.4 : ℝ) (T.fl (T.dOmegaUnpol k s E θ' * k.me)) (s.dOmegaUnpol k E (KN.theta k E Ep) * k.me) :=
    (hB.mul hv0 hv' (by norm_num) (by norm_num) (RE.refl v k.me) (e := (249.1 : ℝ)) (by norm_num)).fl hT.fl hv0 hv'
      (by norm_num) huv (by norm_num)
  have hD : RE v 1 (T.fl (Ep * Ep)) (Ep * Ep) := (RE.refl v _).fl hT.fl hv0 hv' le_rfl huv (by norm_num)
  have hD' := hD.inv hv0 hv' (by norm_num) (by norm_num) (mul_pos hp hp).ne' (e := (1.1 : ℝ)) (by norm_num)
  have hF := (hC.mul hv0 hv' (by norm_num) (by norm_num) hD' (e := (251.8 : ℝ)) (by norm_num)).fl hT.fl hv0 hv' (by norm_num)
    huv (e := 256) (by norm_num)
  rw [mul_one_div, mul_one_div] at hF
  exact hF

/-- The cross section of polarized photons at two angles with almost the same cosine. -/
theorem pol_continuous {θ₀ : ℝ} (hE : 0 < E) (hv : 0 ≤ v) (hv' : v ≤ 1 / 1000)
    (h1 : |Real.cos θ - Real.cos θ₀| ≤ 23 * v) (h2 : E / k.me * |Real.cos θ - Real.cos θ₀| ≤ 23 * v) (φ : ℝ) :
    |s.dOmega k E θ φ - s.dOmega k E θ₀ φ| ≤ 122 * v * |s.dOmega k E θ₀ (Real.pi / 2)| := by
  have hp := EpOverE_pos' (k := k) (θ := θ₀) hE
  have hr := ratio_continuous hE hv hv' h2
  have hS : |Real.sin θ ^ 2 - Real.sin θ₀ ^ 2| ≤ 46 * v := by
    rw [Real.sin_sq, Real.sin_sq, show 1 - Real.cos θ ^ 2 - (1 - Real.cos θ₀ ^ 2) =
      -((Real.cos θ - Real.cos θ₀) * (Real.cos θ + Real.cos θ₀)) by ring, abs_neg, abs_mul]
    have : |Real.cos θ + Real.cos θ₀| ≤ 2 :=
      (abs_add_le _ _).trans (by linarith [Real.abs_cos_le_one θ, Real.abs_cos_le_one θ₀])
    have := mul_le_mul h1 this (abs_nonneg _) (by linarith)
    linarith
  unfold KN.dOmega
  simp only [Real.cos_pi_div_two]
  rw [zero_pow two_ne_zero, mul_zero, sub_zero]
  generalize KN.EpOverE k E θ = r at *
  generalize KN.EpOverE k E θ₀ = r₀ at *
  have hs1 : Real.sin θ₀ ^ 2 ≤ 1 := Real.sin_sq_le_one θ₀
  have hs0 : 0 ≤ Real.sin θ₀ ^ 2 := sq_nonneg _
  have hc1 : Real.cos φ ^ 2 ≤ 1 := Real.cos_sq_le_one φ
  have hc0 : 0 ≤ Real.cos φ ^ 2 := sq_nonneg _
  generalize Real.sin θ ^ 2 = S at *
  generalize Real.sin θ₀ ^ 2 = S₀ at *
  generalize Real.cos φ ^ 2 = C at *
  have ht : RE v (24.3 : ℝ) (r + 1 / r) (r₀ + 1 / r₀) :=
    (hr.mono hv (by norm_num)).add (hr.inv hv hv' (by norm_num) (by norm_num) hp.ne'
      (by norm_num : (23.6 : ℝ) ≤ 24.3 * (1 - 23.6 / 1000))) hp.le (by positivity)
  have h2' := two_le_add_inv hp
  generalize r + 1 / r = t at *
  generalize r₀ + 1 / r₀ = t₀ at *
  have ht0 : 0 ≤ t₀ := by linarith
  have hSC0 : 0 ≤ 2 * S₀ * C := by positivity
  have hSC : 2 * S₀ * C ≤ t₀ := by nlinarith
  have hBt : |t₀ - 2 * S₀ * C| ≤ t₀ := by rw [abs_of_nonneg] <;> linarith
  have hB : |t - 2 * S * C - (t₀ - 2 * S₀ * C)| ≤ (70.3 : ℝ) * v * t₀ := by
    unfold RE at ht
    rw [abs_of_nonneg ht0] at ht
    have h3 : |t - 2 * S * C - (t₀ - 2 * S₀ * C)| ≤ |t - t₀| + |2 * C * (S - S₀)| := by
      rw [show t - 2 * S * C - (t₀ - 2 * S₀ * C) = (t - t₀) - 2 * C * (S - S₀) by ring]
      exact abs_sub _ _
    have h4 : |2 * C * (S - S₀)| ≤ 2 * 1 * (46 * v) := by
      rw [abs_mul, abs_of_nonneg (by positivity : 0 ≤ 2 * C)]
      exact mul_le_mul (by linarith) hS (abs_nonneg _) (by norm_num)
    nlinarith
  have f0 : RE v 0 (0.5 * s.scale k) (0.5 * s.scale k) := RE.refl _ _
  have f1 := f0.mul hv hv' (by norm_num) (by norm_num) hr (e := (23.6 : ℝ)) (by norm_num)
  have f2 := f1.mul hv hv' (by norm_num) (by norm_num) hr (e := (47.8 : ℝ)) (by norm_num)
  generalize 0.5 * s.scale k * r * r = F at *
  generalize 0.5 * s.scale k * r₀ * r₀ = F₀ at *
  generalize t - 2 * S * C = B at *
  generalize t₀ - 2 * S₀ * C = B₀ at *
  rw [abs_mul, abs_of_nonneg ht0]
  have g1 : |F * B - F₀ * B₀| ≤ |F| * |B - B₀| + |F - F₀| * |B₀| := by
    rw [← abs_mul, ← abs_mul]
    refine le_trans (le_of_eq ?_) (abs_add_le _ _)
    congr 1; ring
  have hF := f2.abs_le
  have hFn := abs_nonneg F₀
  have hF2 : |F| ≤ (1.05 : ℝ) * |F₀| := by nlinarith
  have g4 : |F| * |B - B₀| ≤ (1.05 : ℝ) * |F₀| * ((70.3 : ℝ) * v * t₀) := mul_le_mul hF2 hB (abs_nonneg _) (by positivity)
  have g5 : |F - F₀| * |B₀| ≤ (47.8 : ℝ) * v * |F₀| * t₀ := mul_le_mul f2 hBt (abs_nonneg _) (by positivity)
  have g6 : 0 ≤ v * |F₀| * t₀ := by positivity
  linarith

/-- No direction has a larger cross section than the one perpendicular to the polarization. -/
theorem pol_le (hE : 0 < E) (θ φ : ℝ) : |s.dOmega k E θ φ| ≤ |s.dOmega k E θ (Real.pi / 2)| := by
  have hp := EpOverE_pos' (k := k) (θ := θ) hE
  unfold KN.dOmega
  simp only [Real.cos_pi_div_two]
  rw [zero_pow two_ne_zero, mul_zero, sub_zero]
  generalize KN.EpOverE k E θ = r at *
  generalize 0.5 * s.scale k * r * r = F
  rw [abs_mul, abs_mul]
  refine mul_le_mul_of_nonneg_left ?_ (abs_nonneg _)
  have h2 := two_le_add_inv hp
  have hs1 : Real.sin θ ^ 2 ≤ 1 := Real.sin_sq_le_one θ
  have hs0 : 0 ≤ Real.sin θ ^ 2 := sq_nonneg _
  have hc1 : Real.cos φ ^ 2 ≤ 1 := Real.cos_sq_le_one φ
  have hc0 : 0 ≤ Real.cos φ ^ 2 := sq_nonneg _
  generalize Real.sin θ ^ 2 = S at *
  generalize Real.cos φ ^ 2 = C at *
  generalize r + 1 / r = t at *
  have hSC0 : 0 ≤ 2 * S * C := by positivity
  have hSC : 2 * S * C ≤ t := by nlinarith
  rw [abs_of_nonneg (by linarith : 0 ≤ t - 2 * S * C), abs_of_nonneg (by linarith : 0 ≤ t)]
  linarith

theorem dEpdPhi_err (hT : T.Accurate u) (hu : 0 ≤ u) (hE : 0 < E) (hm : s.mc2 ≠ 0) (h1 : KN.comptonEdge k E ≤ Ep) (h2 : Ep ≤ E)
    (hv' : (E / k.me + 1 + k.me / E) * u ≤ 1 / 1000) (hc : |T.cosTheta k E Ep| ≤ 1) (φ : ℝ) :
    ∃ σ, T.dEpdPhi k s E Ep φ = .fin σ ∧
      |σ - s.dEpdPhi k E Ep φ| ≤ 256 * ((E / k.me + 1 + k.me / E) * u) * |s.dEpdPhi k E Ep (Real.pi / 2)| := by
  refine ⟨T.fl (T.fl (T.dOmega k s E (T.arccos (T.cosTheta k E Ep)) φ * k.me) / T.fl (Ep * Ep)), ?_, ?_⟩
  · unfold TArith.dEpdPhi TArith.theta
    rw [if_pos hc]
  have hx : 0 < E / k.me := div_pos hE k.me_pos
  have hy : 0 < k.me / E := div_pos k.me_pos hE
  have hme := k.me_pos
  set v := (E / k.me + 1 + k.me / E) * u with hv
  have hv0 : 0 ≤ v := by positivity
  obtain ⟨huv, hxu⟩ : u ≤ v ∧ (E / k.me + 1) * u ≤ v := dEp_arith' hx hy hu
  obtain ⟨hp, -, -⟩ := KN.theta_cos k hE h1 h2
  have h45 := cos_theta_err hT hu hE h1 h2 hv' hc
  generalize T.arccos (T.cosTheta k E Ep) = θ' at *
  obtain ⟨h4, h5⟩ := h45
  have hA := pol_continuous (s := s) hE hv0 hv' h4 h5 φ
  have hA' := pol_continuous (s := s) hE hv0 hv' h4 h5 (Real.pi / 2)
  have hB := pol_err (s := s) (θ := θ') (φ := φ) hT hu hE hm hv' hxu
  have hmax := pol_le (s := s) (k := k) hE (KN.theta k E Ep) φ
  unfold KN.dEpdPhi
  generalize s.dOmega k E θ' φ = a at *
  generalize s.dOmega k E θ' (Real.pi / 2) = b at *
  generalize s.dOmega k E (KN.theta k E Ep) φ = c at *
  generalize s.dOmega k E (KN.theta k E Ep) (Real.pi / 2) = P at *
  generalize T.dOmega k s E θ' φ = d at *
  have hP := abs_nonneg P
  have hbP : |b| ≤ (1.122 : ℝ) * |P| := by
    have := abs_add_le (b - P) P
    rw [sub_add_cancel] at this
    nlinarith
  have hd : |d - c| ≤ (221 : ℝ) * v * |P| := by
    have g1 := abs_sub_le d a c
    have g2 : 88 * v * |b| ≤ 88 * v * ((1.122 : ℝ) * |P|) := by gcongr
    have g3 : 0 ≤ v * |P| := by positivity
    linarith
  have hd2 : |d * k.me - c * k.me| ≤ (221 : ℝ) * v * (|P| * k.me) := by
    rw [← sub_mul, abs_mul, abs_of_pos hme]
    calc |d - c| * k.me ≤ (221 : ℝ) * v * |P| * k.me := by gcongr
      _ = _ := by ring
  have hc2 : |c * k.me| ≤ |P| * k.me := by
    rw [abs_mul, abs_of_pos hme]; gcongr
  have hd3 := round_abs hT.fl hu hv' huv (by norm_num) (by positivity) hd2 hc2 (e := (222.3 : ℝ)) (by norm_num)
  generalize T.fl (d * k.me) = d' at *
  have hD : RE v 1 (T.fl (Ep * Ep)) (Ep * Ep) := (RE.refl v _).fl hT.fl hv0 hv' le_rfl huv (by norm_num)
  have hD' := hD.inv hv0 hv' (by norm_num) (by norm_num) (mul_pos hp hp).ne' (e := (1.1 : ℝ)) (by norm_num)
  generalize T.fl (Ep * Ep) = g at *
  have hG : 0 < Ep * Ep := mul_pos hp hp
  have hQ : |P * k.me / (Ep * Ep)| = |P| * k.me * (1 / (Ep * Ep)) := by
    rw [abs_div, abs_mul, abs_of_pos hme, abs_of_pos hG]; ring
  rw [hQ]
  have hG' : 0 < 1 / (Ep * Ep) := by positivity
  rw [show d' / g = d' * (1 / g) by ring, show c * k.me / (Ep * Ep) = c * k.me * (1 / (Ep * Ep)) by ring]
  unfold RE at hD'
  rw [abs_of_pos hG'] at hD'
  generalize 1 / (Ep * Ep) = G at *
  generalize 1 / g = G' at *
  generalize c * k.me = C at *
  have hM : 0 ≤ |P| * k.me := by positivity
  generalize |P| * k.me = M at *
  refine round_abs hT.fl hu hv' huv (p := (224 : ℝ)) (by norm_num) (by positivity) ?_ ?_ (by norm_num)
  · have e1 : |d' * G' - C * G| ≤ |d' - C| * |G'| + |C| * |G' - G| := by
      rw [← abs_mul, ← abs_mul]
      refine le_trans (le_of_eq ?_) (abs_add_le _ _)
      congr 1; ring
    have e2 : |G'| ≤ (1.002 : ℝ) * G := by
      have := abs_add_le (G' - G) G
      rw [sub_add_cancel, abs_of_pos hG'] at this
      nlinarith
    have e3 : |d' - C| * |G'| ≤ (222.3 : ℝ) * v * M * ((1.002 : ℝ) * G) := mul_le_mul hd3 e2 (abs_nonneg _) (by positivity)
    have e4 : |C| * |G' - G| ≤ M * ((1.1 : ℝ) * v * G) := mul_le_mul hc2 hD' (abs_nonneg _) hM
    have e5 : 0 ≤ v * M * G := by positivity
    linarith
  · rw [abs_mul, abs_of_pos hG']
    gcongr

end Ries.TArith
