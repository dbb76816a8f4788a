import Verif.Model.RoundedTheta
import Verif.Lemmas.RnEval

/-! # Property C114: scattering angles in floating point -/

namespace Ries.KN

/-- The electron mass of CODATA 2018 as a double precision number, 0.51099895 MeV; the other constants are not used here. -/
noncomputable def codata : PhysConst where
  me := 4602669361613429 / 9007199254740992
  alpha := 1
  hbarc := 1
  u := 1
  kB := 1
  me_pos := by norm_num
  alpha_pos := one_pos
  hbarc_pos := one_pos
  u_pos := one_pos
  kB_pos := one_pos

/-- the Compton edge of a photon of 3.5 MeV, as computed -/
theorem edge_val : edgeR rn codata 3.5 = 8579068042951597 / 2 ^ 55 := by
  have a : rn (3.5 / codata.me) = 7711659043426967 / 2 ^ 50 := by
    rw [rn_val 2 7711659043426967] <;> norm_num [codata]
  have c : rn (1 - rn (Real.cos (rn Real.pi))) = 2 := by
    rw [rn_cos_pi, show (1 : ℝ) - -1 = 2 by norm_num]; exact_mod_cast rn_exact (n := 2) (by norm_num)
  unfold edgeR epOverER
  rw [a, c]
  have b : rn (7711659043426967 / 2 ^ 50 * 2) = 7711659043426967 / 2 ^ 49 := by
    rw [rn_val 3 7711659043426967] <;> norm_num
  rw [b]
  have d : rn (1 + 7711659043426967 / 2 ^ 49) = 8274608996848279 / 2 ^ 49 := by
    rw [rn_val 3 8274608996848279] <;> norm_num
  rw [d]
  have e : rn (1 / (8274608996848279 / 2 ^ 49)) = 4902324595972341 / 2 ^ 56 := by
    rw [rn_val (-4) 4902324595972341] <;> norm_num
  rw [e, rn_val (-3) 8579068042951597] <;> norm_num

/-- ... and the cosine computed from it is below -1. -/
theorem cos_val : cosR rn codata 3.5 (8579068042951597 / 2 ^ 55) = -4503599627370498 / 2 ^ 52 := by
  unfold cosR
  have a : rn (3.5 / (8579068042951597 / 2 ^ 55)) = 8274608996848280 / 2 ^ 49 := by
    rw [rn_val 3 8274608996848280] <;> norm_num
  rw [a]
  have b : rn (8274608996848280 / 2 ^ 49 - 1) = 7711659043426968 / 2 ^ 49 := by
    rw [rn_val 3 7711659043426968] <;> norm_num
  rw [b]
  have c : rn (7711659043426968 / 2 ^ 49 * codata.me) = 7881299347898369 / 2 ^ 50 := by
    rw [rn_val 2 7881299347898369] <;> norm_num [codata]
  rw [c]
  have d : rn (7881299347898369 / 2 ^ 50 / 3.5) = 4503599627370497 / 2 ^ 51 := by
    rw [rn_val 1 4503599627370497] <;> norm_num
  rw [d]
  have e : (1 : ℝ) - 4503599627370497 / 2 ^ 51 = ((-4503599627370498 : ℤ) : ℝ) * 2 ^ (-52 : ℤ) := by norm_num
  rw [e, rn_scale, rn_exact (by norm_num)]
  norm_num

/-- C114: in double precision, a photon of 3.5 MeV scattered to its Compton edge has no scattering angle, and its
energy-differential cross section is nan. -/
theorem C114_nan (scale : ℝ) : thetaR rn codata 3.5 (edgeR rn codata 3.5) = .nan ∧
    dEpR rn codata scale 3.5 (edgeR rn codata 3.5) = .nan := by
  have : thetaR rn codata 3.5 (edgeR rn codata 3.5) = .nan := by
    rw [edge_val]
    unfold thetaR
    rw [cos_val]
    have : ¬ ((-4503599627370498 / 2 ^ 52 : ℝ) ∈ Set.Icc (-1 : ℝ) 1) := by norm_num
    rw [flArccos, if_neg this]
  exact ⟨this, by rw [dEpR, this]; rfl⟩

/-- C114 is false of the code. -/
theorem C114_refuted : ¬ ∀ (k : PhysConst) (scale E : ℝ), rn k.me = k.me → rn E = E → 0 < E →
    thetaR rn k E (edgeR rn k E) ≠ .nan ∧ dEpR rn k scale E (edgeR rn k E) ≠ .nan := by
  intro h
  have hm : rn codata.me = codata.me := by rw [rn_val (-1) 4602669361613429] <;> norm_num [codata]
  have hE : rn 3.5 = 3.5 := by rw [rn_val 1 7881299347898368] <;> norm_num
  exact (h codata 1 3.5 hm hE (by norm_num)).1 (C114_nan 1).1

/-- the computed cosine is accurate -/
theorem cosR_err {fl : ℝ → ℝ} {u : ℝ} (hu : 0 ≤ u) (hu1 : u ≤ 1 / 1000) (hfl : Rounding u fl) (hmono : Monotone fl) (h1 : fl 1 = 1)
    (k : PhysConst) {E Ep : ℝ} (hp : 0 < Ep) (hE : Ep ≤ E) (hc : -1 ≤ 1 - (E / Ep - 1) * k.me / E) :
    |cosR fl k E Ep - (1 - (E / Ep - 1) * k.me / E)| ≤ 10 * u * (k.me / E + 1) ∧ cosR fl k E Ep ≤ 1 := by
  have hE0 : 0 < E := hp.trans_le hE
  have hm := k.me_pos
  have f0 : fl 0 = 0 := by simpa using hfl 0
  set w := k.me / E with hw
  have hw0 : 0 < w := div_pos hm hE0
  set A := E / Ep with hA
  have hA1 : 1 ≤ A := by rw [hA, le_div_iff₀ hp]; linarith
  set D := (A - 1) * w with hD
  have eD : (A - 1) * k.me / E = D := by rw [hD, hw]; ring
  rw [eD] at hc ⊢
  have hD0 : 0 ≤ D := mul_nonneg (by linarith) hw0.le
  have hD2 : D ≤ 2 := by linarith
  set A' := fl A with hA'
  have a1 : |A' - A| ≤ u * A := by have := hfl A; rwa [abs_of_nonneg (by linarith : 0 ≤ A)] at this
  have a2 : 1 ≤ A' := by rw [← h1]; exact hmono hA1
  set B := fl (A' - 1) with hB
  have b1 : |B - (A' - 1)| ≤ u * (A' - 1) := by have := hfl (A' - 1); rwa [abs_of_nonneg (by linarith : 0 ≤ A' - 1)] at this
  have b2 : 0 ≤ B := by rw [← f0]; exact hmono (by linarith)
  set C := fl (B * k.me) with hC
  have hBm : 0 ≤ B * k.me := mul_nonneg b2 hm.le
  have c1 : |C - B * k.me| ≤ u * (B * k.me) := by have := hfl (B * k.me); rwa [abs_of_nonneg hBm] at this
  have c2 : 0 ≤ C := by rw [← f0]; exact hmono hBm
  set G := fl (C / E) with hG
  have hCE : 0 ≤ C / E := div_nonneg c2 hE0.le
  have g1 : |G - C / E| ≤ u * (C / E) := by have := hfl (C / E); rwa [abs_of_nonneg hCE] at this
  have g2 : 0 ≤ G := by rw [← f0]; exact hmono hCE
  have hcos : cosR fl k E Ep = fl (1 - G) := rfl
  rw [hcos]
  have e1 := hfl (1 - G)
  -- in units of w
  have hAw : A * w = D + w := by rw [hD]; ring
  have p1 : |A' * w - A * w| ≤ u * (D + w) := by
    rw [← sub_mul, abs_mul, abs_of_pos hw0, ← hAw, ← mul_assoc]
    exact mul_le_mul_of_nonneg_right a1 hw0.le
  have p2 : |B * w - (A' - 1) * w| ≤ u * ((A' - 1) * w) := by
    rw [← sub_mul, abs_mul, abs_of_pos hw0, ← mul_assoc]
    exact mul_le_mul_of_nonneg_right b1 hw0.le
  have eBw : B * k.me / E = B * w := by rw [hw]; ring
  have p3 : |C / E - B * w| ≤ u * (B * w) := by
    rw [← eBw, ← sub_div, abs_div, abs_of_pos hE0, ← mul_div_assoc]
    exact div_le_div_of_nonneg_right c1 hE0.le
  have p1' := abs_le.1 p1
  have p2' := abs_le.1 p2
  have p3' := abs_le.1 p3
  have g1' := abs_le.1 g1
  set X1 := (A' - 1) * w with hX1
  have hX1e : A' * w = X1 + w := by rw [hX1]; ring
  set X2 := B * w with hX2
  set X3 := C / E with hX3
  have hX10 : 0 ≤ X1 := mul_nonneg (by linarith) hw0.le
  have uD : u * (D + w) ≤ 2 * u + u * w := by nlinarith
  have q1 : |X1 - D| ≤ 2 * u + u * w := by
    rw [abs_le]; constructor <;> linarith
  have q1' := abs_le.1 q1
  have uw : 0 ≤ u * w := mul_nonneg hu hw0.le
  have uuw : u * (u * w) ≤ 1 / 1000 * (u * w) := mul_le_mul_of_nonneg_right hu1 uw
  have uu : u * u ≤ 1 / 1000 * u := mul_le_mul_of_nonneg_right hu1 hu
  have m1 : u * X1 ≤ u * (2 + 2 * u + u * w) := mul_le_mul_of_nonneg_left (by linarith) hu
  have n1 : u * X1 ≤ 2.002 * u + 0.001 * (u * w) := by linarith
  have m2 : u * X2 ≤ u * (X1 + (2.002 * u + 0.001 * (u * w))) := mul_le_mul_of_nonneg_left (by linarith) hu
  have n2 : u * X2 ≤ 2.005 * u + 0.002 * (u * w) := by linarith
  have m3 : u * X3 ≤ u * (X2 + (2.005 * u + 0.002 * (u * w))) := mul_le_mul_of_nonneg_left (by linarith) hu
  have n3 : u * X3 ≤ 2.008 * u + 0.003 * (u * w) := by linarith
  have q4 : |G - D| ≤ 8.1 * u + 1.1 * (u * w) := by
    rw [abs_le]; constructor <;> linarith
  have q4' := abs_le.1 q4
  have hGle : |1 - G| ≤ 1.1 + 0.1 * w := by
    have : u * w ≤ 1 / 1000 * w := mul_le_mul_of_nonneg_right hu1 hw0.le
    rw [abs_le]; constructor <;> linarith
  have m5 := mul_le_mul_of_nonneg_left hGle hu
  have e1' := abs_le.1 e1
  refine ⟨?_, ?_⟩
  · rw [abs_le]
    constructor <;> linarith
  · rw [← h1]; exact hmono (by linarith)

/-- C114, the part that holds: the angle is a number, and its cosine has an absolute error of at most `14 u (m / E + 1)`, for all
scattered energies `Ep` up to `E` that keep a distance of `10 u (m / E + 1)`, in terms of the cosine, from the Compton edge; forward
scattering is exact. Missing: the Compton edge itself. -/
theorem C114_partial {fl : ℝ → ℝ} {u : ℝ} (hu : 0 ≤ u) (hu1 : u ≤ 1 / 1000) (hfl : Rounding u fl) (hmono : Monotone fl) (h1 : fl 1 = 1)
    (k : PhysConst) {E Ep : ℝ} (hp : 0 < Ep) (hE : Ep ≤ E)
    (hc : -1 + 10 * u * (k.me / E + 1) ≤ 1 - (E / Ep - 1) * k.me / E) :
    thetaR fl k E E = .fin 0 ∧
    ∃ θ, thetaR fl k E Ep = .fin θ ∧ |Real.cos θ - (1 - (E / Ep - 1) * k.me / E)| ≤ 14 * u * (k.me / E + 1) := by
  have hE0 : 0 < E := hp.trans_le hE
  have hw0 : 0 < k.me / E := div_pos k.me_pos hE0
  have f0 : fl 0 = 0 := by simpa using hfl 0
  constructor
  · have : cosR fl k E E = 1 := by simp [cosR, div_self hE0.ne', h1, f0]
    rw [thetaR, this, flArccos, if_pos (by norm_num)]
    simp [f0]
  have hpos : 0 ≤ 10 * u * (k.me / E + 1) := by positivity
  obtain ⟨e, le1⟩ := cosR_err hu hu1 hfl hmono h1 k hp hE (by linarith)
  have e' := abs_le.1 e
  have ge1 : -1 ≤ cosR fl k E Ep := by linarith
  refine ⟨fl (Real.arccos (cosR fl k E Ep)), ?_, ?_⟩
  · rw [thetaR, flArccos, if_pos ⟨ge1, le1⟩]
  have h2 := hfl (Real.arccos (cosR fl k E Ep))
  have h3 : |Real.arccos (cosR fl k E Ep)| ≤ 4 := by
    rw [abs_of_nonneg (Real.arccos_nonneg _)]
    exact (Real.arccos_le_pi _).trans Real.pi_lt_four.le
  have h4 := mul_le_mul_of_nonneg_left h3 hu
  have h5 : |Real.cos (fl (Real.arccos (cosR fl k E Ep))) - Real.cos (Real.arccos (cosR fl k E Ep))| ≤ u * 4 :=
    (Real.abs_cos_sub_cos_le _ _).trans (h2.trans h4)
  rw [Real.cos_arccos ge1 le1] at h5
  have h5' := abs_le.1 h5
  have : 0 ≤ u * (k.me / E) := by positivity
  rw [abs_le]
  constructor <;> linarith

/-- A photon of 3.5 MeV scattered to 1 MeV, in double precision, meets the hypotheses. -/
example : Rounding (1 / 2 ^ 53) rn ∧ Monotone rn ∧ rn 1 = 1 ∧
    -1 + 10 * (1 / 2 ^ 53) * (codata.me / 3.5 + 1) ≤ 1 - (3.5 / 1 - 1) * codata.me / 3.5 :=
  ⟨rn_rounding, rn_monotone, by exact_mod_cast rn_exact (n := 1) (by norm_num), by norm_num [codata]⟩

end Ries.KN
