import Verif.Spec.ComptonQuadrature
import Verif.Props.RoundedComptonAngles
import Verif.Props.KleinNishina
import Verif.Props.RoundedKN
import Mathlib.Analysis.Complex.ExponentialBounds

/-! # Property C200: numerical integrals of the differential Compton cross sections and the total one -/

namespace Ries

open TArith

variable {T : TArith} {A : KN.Arith} {k : PhysConst} {u ε δ Z E q : ℝ}

theorem PosRule.sum_close (R : PosRule) {f g : Fin R.n → ℝ} {κ : ℝ} (hf : ∀ i, 0 ≤ f i) (h : ∀ i, |g i - f i| ≤ κ * |f i|) :
    |R.sum g - R.sum f| ≤ κ * R.sum f ∧ R.sum (fun i => |g i|) ≤ (1 + κ) * R.sum f := by
  unfold PosRule.sum
  constructor
  · rw [← Finset.sum_sub_distrib, Finset.mul_sum]
    refine (Finset.abs_sum_le_sum_abs _ _).trans (Finset.sum_le_sum fun i _ => ?_)
    rw [← mul_sub, abs_mul, abs_of_nonneg (R.nonneg i)]
    have := mul_le_mul_of_nonneg_left (h i) (R.nonneg i)
    rw [abs_of_nonneg (hf i)] at this
    linarith
  · rw [Finset.mul_sum]
    refine Finset.sum_le_sum fun i _ => ?_
    have h1 := abs_add_le (g i - f i) (f i)
    rw [sub_add_cancel] at h1
    have h2 := h i
    rw [abs_of_nonneg (hf i)] at h1 h2
    have := mul_le_mul_of_nonneg_left (h1.trans (add_le_add_left h2 _)) (R.nonneg i)
    linarith

/-- A computed quadrature of a nonnegative function with small errors. -/
theorem PosRule.close (R : PosRule) {f g : Fin R.n → ℝ} {κ I : ℝ} (hκ : κ ≤ 1 / 10 ^ 7) (hε : ε ≤ 1 / 10 ^ 7) (hδ : δ ≤ 1 / 10 ^ 7)
    (hδ0 : 0 ≤ δ) (hI : 0 < I)
    (hf : ∀ i, 0 ≤ f i) (h : ∀ i, |g i - f i| ≤ κ * |f i|) (hR : |R.sum f - I| ≤ ε * |I|) (hq : R.Evaluates δ g q) :
    |q - I| ≤ 4 / 10 ^ 7 * I := by
  obtain ⟨h1, h2⟩ := R.sum_close hf h
  unfold PosRule.Evaluates at hq
  rw [abs_of_pos hI] at hR
  generalize R.sum (fun i => |g i|) = m at *
  generalize R.sum g = a at *
  have hR' : |R.sum f - I| ≤ 1 / 10 ^ 7 * I := hR.trans (by gcongr)
  have hb : R.sum f ≤ (1 + 1 / 10 ^ 7) * I := by
    have := (abs_le.mp hR').2
    linarith
  have hb0 : 0 ≤ R.sum f := Finset.sum_nonneg fun i _ => mul_nonneg (R.nonneg i) (hf i)
  generalize R.sum f = b at *
  have e1 : κ * b ≤ 1 / 10 ^ 7 * ((1 + 1 / 10 ^ 7) * I) := by gcongr
  have e2 : δ * m ≤ 1 / 10 ^ 7 * ((1 + 1 / 10 ^ 7) * ((1 + 1 / 10 ^ 7) * I)) := by
    have : m ≤ (1 + 1 / 10 ^ 7) * ((1 + 1 / 10 ^ 7) * I) := h2.trans (by gcongr)
    have hp : (0 : ℝ) ≤ (1 + 1 / 10 ^ 7) * ((1 + 1 / 10 ^ 7) * I) := by positivity
    calc δ * m ≤ δ * ((1 + 1 / 10 ^ 7) * ((1 + 1 / 10 ^ 7) * I)) := by gcongr
      _ ≤ _ := by gcongr
  have e3 := abs_sub_le q a I
  have e4 := abs_sub_le a b I
  norm_num at *
  linarith

/-- The computed total cross section between a hundredth and a thousand electron masses. -/
theorem total_close (hA : A.Accurate u) (hu : 0 ≤ u) (hu1 : u ≤ 1 / 2 ^ 52) (hZ : 0 < Z) (h1 : k.me / 100 ≤ E) (h2 : E ≤ 1000 * k.me) :
    |KN.totalR A k (KN.electron k Z) E - (KN.electron k Z).total k E| ≤ 4 / 10 ^ 7 * (KN.electron k Z).total k E := by
  have hme := k.me_pos
  have hE : 0 < E := lt_of_lt_of_le (by positivity) h1
  have hpos : 0 < (KN.electron k Z).total k E := (C44_total k _ hZ hme).1 E hE
  refine (KN.C84_partial hA hu (hu1.trans (by norm_num)) k (KN.electron k Z) hZ hme E hE).trans ?_
  refine mul_le_mul_of_nonneg_right ?_ hpos.le
  show 150 * u * (1 + k.me / E) ^ 3 * (1 + Real.log (1 + 2 * E / k.me)) ≤ _
  have a1 : k.me / E ≤ 100 := by
    rw [div_le_iff₀ hE]; linarith
  have a2 : 2 * E / k.me ≤ 2000 := by
    rw [div_le_iff₀ hme]; linarith
  have a0 : 0 < k.me / E := by positivity
  have a3 : 0 < 2 * E / k.me := by positivity
  have a4 : Real.log (1 + 2 * E / k.me) ≤ 8 := by
    rw [Real.log_le_iff_le_exp (by positivity)]
    have : (2.7 : ℝ) ^ 8 ≤ Real.exp 8 := by
      have h : (2.7 : ℝ) ≤ Real.exp 1 := by have := Real.exp_one_gt_d9; linarith
      have h' := pow_le_pow_left₀ (by norm_num) h 8
      rwa [← Real.exp_nat_mul, mul_one] at h'
    norm_num at this ⊢
    linarith
  have a5 : 0 ≤ Real.log (1 + 2 * E / k.me) := Real.log_nonneg (by linarith)
  have a6 : (1 + k.me / E) ^ 3 ≤ 101 ^ 3 := pow_le_pow_left₀ (by linarith) (by linarith) 3
  calc 150 * u * (1 + k.me / E) ^ 3 * (1 + Real.log (1 + 2 * E / k.me)) ≤
      150 * (1 / 2 ^ 52) * 101 ^ 3 * (1 + 8) := by gcongr
    _ ≤ _ := by norm_num

theorem isclose_of {t q I : ℝ} (hI : 0 < I) (h1 : |t - I| ≤ 4 / 10 ^ 7 * I) (h2 : |q - I| ≤ 4 / 10 ^ 7 * I) :
    |t - q| ≤ 1 / 10 ^ 5 * |q| := by
  have h3 := abs_sub_le t I q
  rw [abs_sub_comm I q] at h3
  have h4 : I - 4 / 10 ^ 7 * I ≤ |q| := by
    have := (abs_le.mp h2).1
    exact le_trans (by linarith) (le_abs_self q)
  norm_num at *
  linarith

/-- C200, the part that holds: between a hundredth and a thousand electron masses, the numerical integral of the cross section per
polar angle agrees with the total cross section within the tolerance of the tests, for all quadratures with nonnegative weights
with an error of 10⁻⁷. -/
theorem C200_angle_partial (hT : T.Accurate u) (hA : A.Accurate u) (hu : 0 ≤ u) (hu1 : u ≤ 1 / 2 ^ 52) (hZ : 0 < Z)
    (h1 : k.me / 100 ≤ E) (h2 : E ≤ 1000 * k.me) (R : PosRule) (hR : ∀ i, R.node i ∈ Set.Icc 0 Real.pi)
    (hε : ε ≤ 1 / 10 ^ 7) (hδ0 : 0 ≤ δ) (hδ : δ ≤ 1 / 10 ^ 7)
    (hI : R.Integrates ε ((KN.electron k Z).dTheta k E) (∫ θ in (0 : ℝ)..Real.pi, (KN.electron k Z).dTheta k E θ))
    (hq : R.Evaluates δ (fun i => T.dTheta k (KN.electron k Z) E (R.node i)) q) :
    |KN.totalR A k (KN.electron k Z) E - q| ≤ 1 / 10 ^ 5 * |q| := by
  have hme := k.me_pos
  have hE : 0 < E := lt_of_lt_of_le (by positivity) h1
  have hpos : 0 < (KN.electron k Z).total k E := (C44_total k _ hZ hme).1 E hE
  have hx : E / k.me ≤ 1000 := by rw [div_le_iff₀ hme]; exact h2
  have hx0 : 0 < E / k.me := by positivity
  have hv : (E / k.me + 1) * u ≤ 1001 * (1 / 2 ^ 52) := mul_le_mul (by linarith) hu1 hu (by norm_num)
  rw [(C42_angular_integral k Z E hE).2] at hI
  refine isclose_of hpos (total_close hA hu hu1 hZ h1 h2) ?_
  refine R.close (κ := 94 * ((E / k.me + 1) * u)) ?_ hε hδ hδ0 hpos
    (fun i => (C44_differential_nonneg k (KN.electron k Z) hZ hme E hE).2.2.2.2 _ (hR i))
    (fun i => (C198_angle hT hu hE hme.ne' (hv.trans (by norm_num)) _).2) hI hq
  norm_num at *
  linarith

/-- C200, the part that holds, for the cross section per energy of the scattered photon; the nodes at which the angle is nan are
excluded. -/
theorem C200_energy_partial (hT : T.Accurate u) (hA : A.Accurate u) (hu : 0 ≤ u) (hu1 : u ≤ 1 / 2 ^ 52) (hZ : 0 < Z)
    (h1 : k.me / 100 ≤ E) (h2 : E ≤ 1000 * k.me) (R : PosRule) (hR : ∀ i, R.node i ∈ Set.Icc (KN.comptonEdge k E) E)
    (hε : ε ≤ 1 / 10 ^ 7) (hδ0 : 0 ≤ δ) (hδ : δ ≤ 1 / 10 ^ 7) {σ : Fin R.n → ℝ}
    (hσ : ∀ i, T.dEp k (KN.electron k Z) E (R.node i) = .fin (σ i))
    (hI : R.Integrates ε ((KN.electron k Z).dEp k E) (∫ Ep in KN.comptonEdge k E..E, (KN.electron k Z).dEp k E Ep))
    (hq : R.Evaluates δ σ q) :
    |KN.totalR A k (KN.electron k Z) E - q| ≤ 1 / 10 ^ 5 * |q| := by
  have hme := k.me_pos
  have hE : 0 < E := lt_of_lt_of_le (by positivity) h1
  have hpos : 0 < (KN.electron k Z).total k E := (C44_total k _ hZ hme).1 E hE
  have hx : E / k.me ≤ 1000 := by rw [div_le_iff₀ hme]; exact h2
  have hy : k.me / E ≤ 100 := by rw [div_le_iff₀ hE]; linarith
  have hx0 : 0 < E / k.me := by positivity
  have hy0 : 0 < k.me / E := by positivity
  have hv : (E / k.me + 1 + k.me / E) * u ≤ 1101 * (1 / 2 ^ 52) := mul_le_mul (by linarith) hu1 hu (by norm_num)
  rw [(C43_energy_integral k Z E hE).1] at hI
  refine isclose_of hpos (total_close hA hu hu1 hZ h1 h2) ?_
  refine R.close (κ := 256 * ((E / k.me + 1 + k.me / E) * u)) ?_ hε hδ hδ0 hpos
    (fun i => ((C44_differential_nonneg k (KN.electron k Z) hZ hme E hE).2.2.2.1 _ (hR i)).le) (fun i => ?_) hI hq
  · norm_num at *
    linarith
  · rcases (C198_energy (s := KN.electron k Z) hT hu hE hme.ne' (hR i).1 (hR i).2 (hv.trans (by norm_num))).1 with h | ⟨τ, h, hτ⟩
    · rw [hσ i] at h; simp at h
    · rw [hσ i, Fl.fin.injEq] at h
      rw [h]; exact hτ

/-- A computed quadrature of a nonnegative function with errors that are small compared with another function. -/
theorem PosRule.close_dom (R : PosRule) {f g m : Fin R.n → ℝ} {κ I : ℝ} (hκ : κ ≤ 1 / 10 ^ 8) (hε : ε ≤ 1 / 10 ^ 7)
    (hδ : δ ≤ 1 / 10 ^ 7) (hδ0 : 0 ≤ δ) (hI : 0 < I) (hf : ∀ i, 0 ≤ f i) (hm : ∀ i, 0 ≤ m i)
    (h : ∀ i, |g i - f i| ≤ κ * m i) (hR : |R.sum f - I| ≤ ε * |I|) (hM : |R.sum m - I| ≤ ε * |I|) (hq : R.Evaluates δ g q) :
    |q - I| ≤ 4 / 10 ^ 7 * I := by
  rw [abs_of_pos hI] at hR hM
  have hR' : |R.sum f - I| ≤ 1 / 10 ^ 7 * I := hR.trans (by gcongr)
  have hM' : R.sum m ≤ 2 * I := by
    have := (abs_le.mp (hM.trans (mul_le_mul_of_nonneg_right hε hI.le))).2
    norm_num at *
    linarith
  have hm0 : 0 ≤ R.sum m := Finset.sum_nonneg fun i _ => mul_nonneg (R.nonneg i) (hm i)
  have h1 : |R.sum g - R.sum f| ≤ κ * R.sum m := by
    unfold PosRule.sum
    rw [← Finset.sum_sub_distrib, Finset.mul_sum]
    refine (Finset.abs_sum_le_sum_abs _ _).trans (Finset.sum_le_sum fun i _ => ?_)
    rw [← mul_sub, abs_mul, abs_of_nonneg (R.nonneg i)]
    have := mul_le_mul_of_nonneg_left (h i) (R.nonneg i)
    linarith
  have h2 : R.sum (fun i => |g i|) ≤ R.sum f + κ * R.sum m := by
    unfold PosRule.sum
    rw [Finset.mul_sum, ← Finset.sum_add_distrib]
    refine Finset.sum_le_sum fun i _ => ?_
    have h1 := abs_add_le (g i - f i) (f i)
    rw [sub_add_cancel, abs_of_nonneg (hf i)] at h1
    have := mul_le_mul_of_nonneg_left (h1.trans (add_le_add_left (h i) _)) (R.nonneg i)
    linarith
  have h3 : κ * R.sum m ≤ 1 / 10 ^ 8 * (2 * I) :=
    (mul_le_mul_of_nonneg_right hκ hm0).trans (mul_le_mul_of_nonneg_left hM' (by norm_num))
  unfold PosRule.Evaluates at hq
  have h4 : R.sum f ≤ 2 * I := by
    have := (abs_le.mp hR').2
    norm_num at *
    linarith
  have h5 : δ * R.sum (fun i => |g i|) ≤ 1 / 10 ^ 7 * (2 * I + 1 / 10 ^ 8 * (2 * I)) := by
    have : R.sum (fun i => |g i|) ≤ 2 * I + 1 / 10 ^ 8 * (2 * I) := by linarith
    exact (mul_le_mul_of_nonneg_left this hδ0).trans (mul_le_mul_of_nonneg_right hδ (by positivity))
  have e3 := abs_sub_le q (R.sum g) I
  have e4 := abs_sub_le (R.sum g) (R.sum f) I
  norm_num at *
  linarith

/-- The cross section perpendicular to the polarization is at most twice the azimuthal mean. -/
theorem perp_le {s : KN} (hs : 0 ≤ s.scale k) (hE : 0 < E) (θ : ℝ) :
    |s.dOmega k E θ (Real.pi / 2)| ≤ 2 * (s.dOmegaUnpol k E θ / (2 * Real.pi)) := by
  have hp := EpOverE_pos' (k := k) (θ := θ) hE
  have hpi := Real.pi_pos
  unfold KN.dOmega KN.dOmegaUnpol
  simp only [Real.cos_pi_div_two]
  rw [zero_pow two_ne_zero, mul_zero, sub_zero]
  generalize KN.EpOverE k E θ = r at *
  have h2 := two_le_add_inv hp
  have hs1 : Real.sin θ ^ 2 ≤ 1 := Real.sin_sq_le_one θ
  generalize Real.sin θ ^ 2 = S at *
  rw [abs_of_nonneg (by positivity)]
  have e : 2 * (Real.pi * s.scale k * r * r * (r + 1 / r - S) / (2 * Real.pi)) = s.scale k * r * r * (r + 1 / r - S) := by
    field_simp
  rw [e]
  generalize r + 1 / r = t at *
  have : 0 ≤ s.scale k * r * r := by positivity
  nlinarith

/-- C200, the part that holds, for polarized photons and integrals over both angles: rules that integrate the cross section and its
azimuthal mean. -/
theorem C200_polarized_partial (hT : T.Accurate u) (hA : A.Accurate u) (hu : 0 ≤ u) (hu1 : u ≤ 1 / 2 ^ 52) (hZ : 0 < Z)
    (h1 : k.me / 100 ≤ E) (h2 : E ≤ 1000 * k.me) (R : PosRule) (φ : Fin R.n → ℝ) (hR : ∀ i, R.node i ∈ Set.Icc 0 Real.pi)
    (hε : ε ≤ 1 / 10 ^ 7) (hδ0 : 0 ≤ δ) (hδ : δ ≤ 1 / 10 ^ 7)
    (hI : |R.sum (fun i => (KN.electron k Z).dOmega k E (R.node i) (φ i) * Real.sin (R.node i)) -
        ∫ θ in (0 : ℝ)..Real.pi, ∫ φ in (0 : ℝ)..(2 * Real.pi), (KN.electron k Z).dOmega k E θ φ * Real.sin θ| ≤
      ε * |∫ θ in (0 : ℝ)..Real.pi, ∫ φ in (0 : ℝ)..(2 * Real.pi), (KN.electron k Z).dOmega k E θ φ * Real.sin θ|)
    (hM : R.Integrates ε (fun θ => (KN.electron k Z).dTheta k E θ / (2 * Real.pi))
      (∫ θ in (0 : ℝ)..Real.pi, (KN.electron k Z).dTheta k E θ))
    (hq : R.Evaluates δ (fun i => T.fl (T.dOmega k (KN.electron k Z) E (R.node i) (φ i) * T.sin (R.node i))) q) :
    |KN.totalR A k (KN.electron k Z) E - q| ≤ 1 / 10 ^ 5 * |q| := by
  have hme := k.me_pos
  have hE : 0 < E := lt_of_lt_of_le (by positivity) h1
  have hpos : 0 < (KN.electron k Z).total k E := (C44_total k _ hZ hme).1 E hE
  have hx : E / k.me ≤ 1000 := by rw [div_le_iff₀ hme]; exact h2
  have hx0 : 0 < E / k.me := by positivity
  have hv : (E / k.me + 1) * u ≤ 1001 * (1 / 2 ^ 52) := mul_le_mul (by linarith) hu1 hu (by norm_num)
  have hv0 : 0 ≤ (E / k.me + 1) * u := by positivity
  have hv' : (E / k.me + 1) * u ≤ 1 / 1000 := hv.trans (by norm_num)
  have huv : u ≤ (E / k.me + 1) * u := by nlinarith
  rw [(C42_angular_integral k Z E hE).1] at hI
  rw [(C42_angular_integral k Z E hE).2] at hM
  have hsc := (scale_pos k (KN.electron k Z) hZ hme).le
  have hsin : ∀ i, 0 ≤ Real.sin (R.node i) := fun i => Real.sin_nonneg_of_mem_Icc (hR i)
  have hnn := C44_differential_nonneg k (KN.electron k Z) hZ hme E hE
  refine isclose_of hpos (total_close hA hu hu1 hZ h1 h2) ?_
  refine R.close_dom (κ := 188 * ((E / k.me + 1) * u)) ?_ hε hδ hδ0 hpos
    (fun i => mul_nonneg (hnn.1 _ _) (hsin i)) (fun i => div_nonneg (hnn.2.2.2.2 _ (hR i)) (by positivity)) (fun i => ?_) hI hM hq
  · norm_num at *
    linarith
  · have g1 := C198_polarized_partial (s := KN.electron k Z) hT hu hE hme.ne' hv' (R.node i) (φ i)
    have g2 := perp_le (s := KN.electron k Z) hsc hE (R.node i)
    have g3 := pol_le (s := KN.electron k Z) (k := k) hE (R.node i) (φ i)
    have g4 : |T.sin (R.node i) - Real.sin (R.node i)| ≤ 4 * ((E / k.me + 1) * u) * Real.sin (R.node i) := by
      have := hT.sin (R.node i)
      rw [abs_of_nonneg (hsin i)] at this
      exact this.trans (mul_le_mul_of_nonneg_right (by linarith) (hsin i))
    have hS := hsin i
    show |_ - _| ≤ 188 * ((E / k.me + 1) * u) * ((KN.electron k Z).dTheta k E (R.node i) / (2 * Real.pi))
    have e : (KN.electron k Z).dTheta k E (R.node i) / (2 * Real.pi) =
        (KN.electron k Z).dOmegaUnpol k E (R.node i) / (2 * Real.pi) * Real.sin (R.node i) := by
      unfold KN.dTheta; ring
    rw [e]
    generalize (KN.electron k Z).dOmegaUnpol k E (R.node i) / (2 * Real.pi) = m at *
    generalize (KN.electron k Z).dOmega k E (R.node i) (φ i) = a at *
    generalize T.dOmega k (KN.electron k Z) E (R.node i) (φ i) = a' at *
    have hP := abs_nonneg ((KN.electron k Z).dOmega k E (R.node i) (Real.pi / 2))
    generalize |(KN.electron k Z).dOmega k E (R.node i) (Real.pi / 2)| = P at *
    generalize T.sin (R.node i) = S' at *
    generalize Real.sin (R.node i) = S at *
    generalize (E / k.me + 1) * u = v at *
    have g5 : |T.fl (a' * S') - a * S| ≤ 94 * v * (P * S) := by
      refine round_abs hT.fl hu hv' huv (p := (92.4 : ℝ)) (by norm_num) (by positivity) ?_ ?_ (by norm_num)
      · have e1 : |a' * S' - a * S| ≤ |a' - a| * |S'| + |a| * |S' - S| := by
          rw [← abs_mul, ← abs_mul]
          refine le_trans (le_of_eq ?_) (abs_add_le _ _)
          congr 1; ring
        have e2 : |S'| ≤ (1.004 : ℝ) * S := by
          have := abs_add_le (S' - S) S
          rw [sub_add_cancel, abs_of_nonneg hS] at this
          nlinarith
        have e3 : |a' - a| * |S'| ≤ 88 * v * P * ((1.004 : ℝ) * S) := mul_le_mul g1 e2 (abs_nonneg _) (by positivity)
        have e4 : |a| * |S' - S| ≤ P * (4 * v * S) := mul_le_mul g3 g4 (abs_nonneg _) hP
        have e5 : 0 ≤ v * P * S := by positivity
        linarith
      · rw [abs_mul, abs_of_nonneg hS]
        gcongr
    refine g5.trans ?_
    have : 94 * v * (P * S) ≤ 94 * v * (2 * m * S) := by gcongr
    linarith

/-- C200, the part that holds, for polarized photons and integrals over the energy and the azimuthal angle. -/
theorem C200_polarized_energy_partial (hT : T.Accurate u) (hA : A.Accurate u) (hu : 0 ≤ u) (hu1 : u ≤ 1 / 2 ^ 52) (hZ : 0 < Z)
    (h1 : k.me / 100 ≤ E) (h2 : E ≤ 1000 * k.me) (R : PosRule) (φ : Fin R.n → ℝ)
    (hR : ∀ i, R.node i ∈ Set.Icc (KN.comptonEdge k E) E)
    (hε : ε ≤ 1 / 10 ^ 7) (hδ0 : 0 ≤ δ) (hδ : δ ≤ 1 / 10 ^ 7) {σ : Fin R.n → ℝ}
    (hσ : ∀ i, T.dEpdPhi k (KN.electron k Z) E (R.node i) (φ i) = .fin (σ i))
    (hI : |R.sum (fun i => (KN.electron k Z).dEpdPhi k E (R.node i) (φ i)) -
        ∫ Ep in KN.comptonEdge k E..E, ∫ φ in (0 : ℝ)..(2 * Real.pi), (KN.electron k Z).dEpdPhi k E Ep φ| ≤
      ε * |∫ Ep in KN.comptonEdge k E..E, ∫ φ in (0 : ℝ)..(2 * Real.pi), (KN.electron k Z).dEpdPhi k E Ep φ|)
    (hM : R.Integrates ε (fun Ep => (KN.electron k Z).dEp k E Ep / (2 * Real.pi))
      (∫ Ep in KN.comptonEdge k E..E, (KN.electron k Z).dEp k E Ep))
    (hq : R.Evaluates δ σ q) :
    |KN.totalR A k (KN.electron k Z) E - q| ≤ 1 / 10 ^ 5 * |q| := by
  have hme := k.me_pos
  have hE : 0 < E := lt_of_lt_of_le (by positivity) h1
  have hpos : 0 < (KN.electron k Z).total k E := (C44_total k _ hZ hme).1 E hE
  have hx : E / k.me ≤ 1000 := by rw [div_le_iff₀ hme]; exact h2
  have hy : k.me / E ≤ 100 := by rw [div_le_iff₀ hE]; linarith
  have hx0 : 0 < E / k.me := by positivity
  have hy0 : 0 < k.me / E := by positivity
  have hv : (E / k.me + 1 + k.me / E) * u ≤ 1101 * (1 / 2 ^ 52) := mul_le_mul (by linarith) hu1 hu (by norm_num)
  have hv0 : 0 ≤ (E / k.me + 1 + k.me / E) * u := by positivity
  rw [(C43_energy_integral k Z E hE).2] at hI
  rw [(C43_energy_integral k Z E hE).1] at hM
  have hsc := (scale_pos k (KN.electron k Z) hZ hme).le
  have hnn := C44_differential_nonneg k (KN.electron k Z) hZ hme E hE
  refine isclose_of hpos (total_close hA hu hu1 hZ h1 h2) ?_
  refine R.close_dom (κ := 512 * ((E / k.me + 1 + k.me / E) * u)) ?_ hε hδ hδ0 hpos
    (fun i => hnn.2.2.1 _ (hR i) _) (fun i => div_nonneg (hnn.2.2.2.1 _ (hR i)).le (by positivity)) (fun i => ?_) hI hM hq
  · norm_num at *
    linarith
  · rcases C198_polarized_energy_partial (s := KN.electron k Z) hT hu hE hme.ne' (hR i).1 (hR i).2 (hv.trans (by norm_num)) (φ i)
      with h | ⟨τ, h, hτ⟩
    · rw [hσ i] at h; simp at h
    · rw [hσ i, Fl.fin.injEq] at h
      rw [h]
      refine hτ.trans ?_
      have g := perp_le (s := KN.electron k Z) hsc hE (KN.theta k E (R.node i))
      have hG : 0 ≤ k.me / (R.node i * R.node i) := div_nonneg hme.le (mul_self_nonneg _)
      have e1 : |(KN.electron k Z).dEpdPhi k E (R.node i) (Real.pi / 2)| =
          |(KN.electron k Z).dOmega k E (KN.theta k E (R.node i)) (Real.pi / 2)| * (k.me / (R.node i * R.node i)) := by
        unfold KN.dEpdPhi
        rw [mul_div_assoc, abs_mul, abs_of_nonneg hG]
      have e2 : (KN.electron k Z).dEp k E (R.node i) / (2 * Real.pi) =
          (KN.electron k Z).dOmegaUnpol k E (KN.theta k E (R.node i)) / (2 * Real.pi) * (k.me / (R.node i * R.node i)) := by
        unfold KN.dEp; ring
      rw [e1, e2]
      have := mul_le_mul_of_nonneg_right g hG
      have := mul_le_mul_of_nonneg_left this (by positivity : 0 ≤ 256 * ((E / k.me + 1 + k.me / E) * u))
      linarith

/-- C200 is false of low energies: for photons of about 2 eV, the numerical integrals are positive and the total cross section is
negative. -/
theorem C200_refuted (hT : T.Accurate (1 / 2 ^ 53)) (hA : A.Double) (hZ : 0 < Z)
    (h1 : 1 / 2 ^ 18 + 1.01 / 2 ^ 54 ≤ E / k.me) (h2 : E / k.me ≤ 1 / 2 ^ 18 + 1.2 / 2 ^ 54)
    (R : PosRule) (hR : ∀ i, R.node i ∈ Set.Icc 0 Real.pi) (hε : ε ≤ 1 / 10 ^ 7) (hδ0 : 0 ≤ δ) (hδ : δ ≤ 1 / 10 ^ 7)
    (hI : R.Integrates ε ((KN.electron k Z).dTheta k E) (∫ θ in (0 : ℝ)..Real.pi, (KN.electron k Z).dTheta k E θ))
    (hq : R.Evaluates δ (fun i => T.dTheta k (KN.electron k Z) E (R.node i)) q) :
    KN.totalR A k (KN.electron k Z) E < 0 ∧ 0 < q := by
  have hme := k.me_pos
  obtain ⟨hneg, hpos⟩ := KN.C84_refuted hA k (KN.electron k Z) hZ hme E h1 h2
  refine ⟨hneg, ?_⟩
  have hx0 : 0 < E / k.me := lt_of_lt_of_le (by norm_num) h1
  have hE : 0 < E := by
    have := mul_pos hx0 hme
    rwa [div_mul_cancel₀ _ hme.ne'] at this
  have hv : (E / k.me + 1) * (1 / 2 ^ 53) ≤ 2 * (1 / 2 ^ 53) :=
    mul_le_mul_of_nonneg_right (by norm_num at h2 ⊢; linarith) (by norm_num)
  rw [(C42_angular_integral k Z E hE).2] at hI
  have h : |q - (KN.electron k Z).total k E| ≤ 4 / 10 ^ 7 * (KN.electron k Z).total k E := by
    refine R.close (κ := 94 * ((E / k.me + 1) * (1 / 2 ^ 53))) ?_ hε hδ hδ0 hpos
      (fun i => (C44_differential_nonneg k (KN.electron k Z) hZ hme E hE).2.2.2.2 _ (hR i))
      (fun i => (C198_angle hT (by positivity) hE hme.ne' (hv.trans (by norm_num)) _).2) hI hq
    norm_num at *
    linarith
  have := (abs_le.mp h).1
  norm_num at *
  linarith

/-- A rule with one node and the weight that makes it exact. -/
noncomputable def exRule (x f I : ℝ) (hf : 0 ≤ f) (hI : 0 ≤ I) : PosRule where
  n := 1
  w _ := I / f
  node _ := x
  nonneg _ := div_nonneg hI hf

/-- The hypotheses are met in double precision by photons of one electron mass. -/
example : ∃ (R : PosRule) (q : ℝ), (∀ i, R.node i ∈ Set.Icc 0 Real.pi) ∧
    R.Integrates 0 ((KN.electron KN.codata 82).dTheta KN.codata KN.codata.me)
      (∫ θ in (0 : ℝ)..Real.pi, (KN.electron KN.codata 82).dTheta KN.codata KN.codata.me θ) ∧
    R.Evaluates 0 (fun i => exTArith.dTheta KN.codata (KN.electron KN.codata 82) KN.codata.me (R.node i)) q ∧
    |KN.totalR KN.rnArith KN.codata (KN.electron KN.codata 82) KN.codata.me - q| ≤ 1 / 10 ^ 5 * |q| := by
  have hme := KN.codata.me_pos
  have hZ : (0 : ℝ) < 82 := by norm_num
  have hI : 0 < (KN.electron KN.codata 82).total KN.codata KN.codata.me := (C44_total KN.codata _ hZ hme).1 _ hme
  have hf : 0 < (KN.electron KN.codata 82).dTheta KN.codata KN.codata.me (Real.pi / 2) := by
    unfold KN.dTheta
    rw [Real.sin_pi_div_two, mul_one]
    exact (C44_differential_nonneg KN.codata (KN.electron KN.codata 82) hZ hme _ hme).2.1 _
  have h1 : ∀ i, (exRule (Real.pi / 2) _ _ hf.le hI.le).node i ∈ Set.Icc 0 Real.pi := fun i =>
    ⟨by show 0 ≤ Real.pi / 2; positivity, by show Real.pi / 2 ≤ Real.pi; linarith [Real.pi_pos]⟩
  have h2 : (exRule (Real.pi / 2) _ _ hf.le hI.le).Integrates 0 ((KN.electron KN.codata 82).dTheta KN.codata KN.codata.me)
      (∫ θ in (0 : ℝ)..Real.pi, (KN.electron KN.codata 82).dTheta KN.codata KN.codata.me θ) := by
    rw [(C42_angular_integral KN.codata 82 _ hme).2]
    unfold PosRule.Integrates PosRule.sum
    have : (∑ i, (exRule (Real.pi / 2) _ _ hf.le hI.le).w i * (KN.electron KN.codata 82).dTheta KN.codata KN.codata.me
        ((exRule (Real.pi / 2) _ _ hf.le hI.le).node i)) = (KN.electron KN.codata 82).total KN.codata KN.codata.me := by
      show (∑ _i : Fin 1, (KN.electron KN.codata 82).total KN.codata KN.codata.me /
        (KN.electron KN.codata 82).dTheta KN.codata KN.codata.me (Real.pi / 2) *
          (KN.electron KN.codata 82).dTheta KN.codata KN.codata.me (Real.pi / 2)) = _
      rw [Fin.sum_univ_one, div_mul_cancel₀ _ hf.ne']
    rw [this]
    simp
  have h3 : (exRule (Real.pi / 2) _ _ hf.le hI.le).Evaluates 0
      (fun i => exTArith.dTheta KN.codata (KN.electron KN.codata 82) KN.codata.me
        ((exRule (Real.pi / 2) _ _ hf.le hI.le).node i))
      ((exRule (Real.pi / 2) _ _ hf.le hI.le).sum fun i => exTArith.dTheta KN.codata (KN.electron KN.codata 82) KN.codata.me
        ((exRule (Real.pi / 2) _ _ hf.le hI.le).node i)) := by
    unfold PosRule.Evaluates
    rw [sub_self, abs_zero, zero_mul]
  refine ⟨exRule (Real.pi / 2) _ _ hf.le hI.le, _, h1, h2, h3, ?_⟩
  exact C200_angle_partial exTArith_accurate KN.rnArith_double.toAccurate (by positivity) (by norm_num) hZ (by linarith)
    (by linarith) _ h1 (by positivity) le_rfl (by positivity) h2 h3

/-- The azimuth at which the cross section is its azimuthal mean, for rules that meet the hypotheses of the theorems on polarized
photons. -/
theorem pol_quarter (s : KN) (k : PhysConst) (E θ : ℝ) :
    s.dOmega k E θ (Real.pi / 4) = s.dOmegaUnpol k E θ / (2 * Real.pi) := by
  have h : Real.cos (Real.pi / 4) ^ 2 = 1 / 2 := by
    rw [Real.cos_pi_div_four, div_pow, Real.sq_sqrt (by norm_num)]; norm_num
  have hpi := Real.pi_pos.ne'
  unfold KN.dOmega KN.dOmegaUnpol
  simp only
  rw [h]
  field_simp
  ring

example : ∃ (R : PosRule) (φ : Fin R.n → ℝ) (q : ℝ),
    |KN.totalR KN.rnArith KN.codata (KN.electron KN.codata 82) KN.codata.me - q| ≤ 1 / 10 ^ 5 * |q| ∧
    q = R.sum fun i => exTArith.fl (exTArith.dOmega KN.codata (KN.electron KN.codata 82) KN.codata.me (R.node i) (φ i) *
      exTArith.sin (R.node i)) := by
  have hme := KN.codata.me_pos
  have hZ : (0 : ℝ) < 82 := by norm_num
  have hI : 0 < (KN.electron KN.codata 82).total KN.codata KN.codata.me := (C44_total KN.codata _ hZ hme).1 _ hme
  have hf : 0 < (KN.electron KN.codata 82).dOmega KN.codata KN.codata.me (Real.pi / 2) (Real.pi / 4) := by
    rw [pol_quarter]
    exact div_pos ((C44_differential_nonneg KN.codata (KN.electron KN.codata 82) hZ hme _ hme).2.1 _) (by positivity)
  have hs : ∀ g : ℝ → ℝ, g (Real.pi / 2) = (KN.electron KN.codata 82).dOmega KN.codata KN.codata.me (Real.pi / 2) (Real.pi / 4) →
      (exRule (Real.pi / 2) _ _ hf.le hI.le).sum (fun i => g ((exRule (Real.pi / 2) _ _ hf.le hI.le).node i)) =
        (KN.electron KN.codata 82).total KN.codata KN.codata.me := by
    intro g hg
    unfold PosRule.sum
    show (∑ _i : Fin 1, (KN.electron KN.codata 82).total KN.codata KN.codata.me /
      (KN.electron KN.codata 82).dOmega KN.codata KN.codata.me (Real.pi / 2) (Real.pi / 4) * g (Real.pi / 2)) = _
    rw [Fin.sum_univ_one, hg, div_mul_cancel₀ _ hf.ne']
  refine ⟨exRule (Real.pi / 2) _ _ hf.le hI.le, fun _ => Real.pi / 4, _, ?_, rfl⟩
  refine C200_polarized_partial exTArith_accurate KN.rnArith_double.toAccurate (by positivity) (by norm_num) hZ (by linarith)
    (by linarith) (exRule (Real.pi / 2) _ _ hf.le hI.le) (fun _ => Real.pi / 4) (δ := 0)
    (fun i => ⟨by show 0 ≤ Real.pi / 2; positivity, by show Real.pi / 2 ≤ Real.pi; linarith [Real.pi_pos]⟩)
    (ε := 0) (by positivity) le_rfl (by positivity) ?_ ?_ ?_
  · rw [(C42_angular_integral KN.codata 82 _ hme).1,
      hs (fun θ => (KN.electron KN.codata 82).dOmega KN.codata KN.codata.me θ (Real.pi / 4) * Real.sin θ)
        (by rw [Real.sin_pi_div_two, mul_one])]
    simp
  · unfold PosRule.Integrates
    rw [(C42_angular_integral KN.codata 82 _ hme).2,
      hs (fun θ => (KN.electron KN.codata 82).dTheta KN.codata KN.codata.me θ / (2 * Real.pi))
        (by rw [pol_quarter]; unfold KN.dTheta; rw [Real.sin_pi_div_two, mul_one])]
    simp
  · unfold PosRule.Evaluates
    rw [sub_self, abs_zero, zero_mul]

/-- A node that meets the hypotheses of `C200_energy_partial`: half of the energy of a photon of one electron mass. -/
example : KN.codata.me / 2 ∈ Set.Icc (KN.comptonEdge KN.codata KN.codata.me) KN.codata.me ∧
    ∃ σ, exTArith.dEp KN.codata (KN.electron KN.codata 82) KN.codata.me (KN.codata.me / 2) = .fin σ := by
  have hme := KN.codata.me_pos
  have e1 : KN.codata.me / KN.codata.me = 1 := div_self hme.ne'
  have h1 : KN.comptonEdge KN.codata KN.codata.me ≤ KN.codata.me / 2 := by
    rw [KN.edge_eq, e1]
    gcongr
    norm_num
  have h2 : KN.codata.me / 2 ≤ KN.codata.me := by linarith
  refine ⟨⟨h1, h2⟩, ?_⟩
  obtain ⟨h3, h4⟩ := C198_energy (s := KN.electron KN.codata 82) exTArith_accurate (by positivity) hme hme.ne' h1 h2
    (by rw [e1]; norm_num)
  have hc : Real.cos (KN.theta KN.codata KN.codata.me (KN.codata.me / 2)) = 0 := by
    unfold KN.theta
    have : 1 - (KN.codata.me / (KN.codata.me / 2) - 1) * KN.codata.me / KN.codata.me = 0 := by field_simp; norm_num
    rw [this, Real.cos_arccos] <;> norm_num
  rcases h3 with h | ⟨σ, h, -⟩
  · exact absurd h (h4 (by rw [hc, e1, abs_zero]; norm_num))
  · exact ⟨σ, h⟩

end Ries
