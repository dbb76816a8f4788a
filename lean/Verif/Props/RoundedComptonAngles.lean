import Verif.Lemmas.RoundedComptonEnergies
import Verif.Lemmas.RnEval
import Verif.Props.RoundedReso
import Verif.Props.RoundedTheta

/-! # Property C198: differential Compton cross sections in floating point -/

namespace Ries

open TArith

variable {T : TArith} {k : PhysConst} {s : KN} {u E Ep θ φ : ℝ}

/-- C198: the cross sections of unpolarized photons per solid angle and per polar angle have a relative error of a hundred
roundings, which grows with the energy of the photon in units of the mass of the electron. -/
theorem C198_angle (hT : T.Accurate u) (hu : 0 ≤ u) (hE : 0 < E) (hm : s.mc2 ≠ 0) (hx : (E / k.me + 1) * u ≤ 1 / 1000)
    (θ : ℝ) :
    |T.dOmegaUnpol k s E θ - s.dOmegaUnpol k E θ| ≤ 94 * ((E / k.me + 1) * u) * |s.dOmegaUnpol k E θ| ∧
    |T.dTheta k s E θ - s.dTheta k E θ| ≤ 94 * ((E / k.me + 1) * u) * |s.dTheta k E θ| := by
  have hxp : 0 < E / k.me := div_pos hE k.me_pos
  have hv : 0 ≤ (E / k.me + 1) * u := by positivity
  have huv : u ≤ (E / k.me + 1) * u := by nlinarith
  have h := unpol_re (s := s) (θ := θ) hT hu hE hm hx le_rfl
  refine ⟨h.mono hv (by norm_num), ?_⟩
  have h4 : RE ((E / k.me + 1) * u) 4 (T.sin θ) (Real.sin θ) := (hT.sin θ).trans (by gcongr)
  have h5 := (h.mul hv hx (by norm_num) (by norm_num) h4 (e := (92.4 : ℝ)) (by norm_num)).fl hT.fl hv hx (by norm_num) huv
    (e := 94) (by norm_num)
  exact h5

/-- C198: the energy-differential cross section of a kinematically possible energy is nan or has a relative error of a few
hundred roundings, which grows with the ratio of the energy of the photon and the mass of the electron and with its inverse;
it is a number unless the photon is scattered forwards or backwards up to a few roundings of the cosine. -/
theorem C198_energy (hT : T.Accurate u) (hu : 0 ≤ u) (hE : 0 < E) (hm : s.mc2 ≠ 0) (h1 : KN.comptonEdge k E ≤ Ep) (h2 : Ep ≤ E)
    (hx : (E / k.me + 1 + k.me / E) * u ≤ 1 / 1000) :
    (T.dEp k s E Ep = .nan ∨ ∃ σ, T.dEp k s E Ep = .fin σ ∧
      |σ - s.dEp k E Ep| ≤ 256 * ((E / k.me + 1 + k.me / E) * u) * |s.dEp k E Ep|) ∧
    (|Real.cos (KN.theta k E Ep)| + (2 * (k.me / E) + 10) * u ≤ 1 → T.dEp k s E Ep ≠ .nan) := by
  constructor
  · by_cases hc : |T.cosTheta k E Ep| ≤ 1
    · exact .inr (dEp_re hT hu hE hm h1 h2 hx hc)
    · left
      unfold TArith.dEp TArith.theta
      rw [if_neg hc]
  · intro h
    obtain ⟨-, ha, hb⟩ := KN.theta_cos k hE h1 h2
    have hx' : 0 < E / k.me := div_pos hE k.me_pos
    have hy : 0 < k.me / E := div_pos k.me_pos hE
    have aux : ∀ q : ℝ, 1 - q ≤ 1 → -1 ≤ 1 - q → 0 ≤ q ∧ q ≤ 2 := fun q _ _ => ⟨by linarith, by linarith⟩
    have huv := (dEp_arith' hx' hy hu).1.trans hx
    have hcos := cosTheta_err hT hu huv hE (aux _ hb ha).1 (aux _ hb ha).2
    have hθ : Real.cos (KN.theta k E Ep) = 1 - (E / Ep - 1) * k.me / E := by unfold KN.theta; exact Real.cos_arccos ha hb
    rw [hθ] at h
    have hc : |T.cosTheta k E Ep| ≤ 1 := by
      generalize 1 - (E / Ep - 1) * k.me / E = c₀ at *
      generalize T.cosTheta k E Ep = c at *
      generalize k.me / E = y at *
      have := abs_add_le (c - c₀) c₀
      rw [sub_add_cancel] at this
      nlinarith
    unfold TArith.dEp TArith.theta
    rw [if_pos hc]
    simp

/-- C198, what remains for polarized photons: the error is small compared with the cross section perpendicular to the
polarization; it need not be small compared with the cross section itself (`C198_refuted`). -/
theorem C198_polarized_partial (hT : T.Accurate u) (hu : 0 ≤ u) (hE : 0 < E) (hm : s.mc2 ≠ 0)
    (hx : (E / k.me + 1) * u ≤ 1 / 1000) (θ φ : ℝ) :
    |T.dOmega k s E θ φ - s.dOmega k E θ φ| ≤ 88 * ((E / k.me + 1) * u) * |s.dOmega k E θ (Real.pi / 2)| :=
  pol_err hT hu hE hm hx le_rfl

/-- C198, the same for the cross section of polarized photons per energy and azimuthal angle. -/
theorem C198_polarized_energy_partial (hT : T.Accurate u) (hu : 0 ≤ u) (hE : 0 < E) (hm : s.mc2 ≠ 0)
    (h1 : KN.comptonEdge k E ≤ Ep) (h2 : Ep ≤ E) (hx : (E / k.me + 1 + k.me / E) * u ≤ 1 / 1000) (φ : ℝ) :
    T.dEpdPhi k s E Ep φ = .nan ∨ ∃ σ, T.dEpdPhi k s E Ep φ = .fin σ ∧
      |σ - s.dEpdPhi k E Ep φ| ≤ 256 * ((E / k.me + 1 + k.me / E) * u) * |s.dEpdPhi k E Ep (Real.pi / 2)| := by
  by_cases hc : |T.cosTheta k E Ep| ≤ 1
  · exact .inr (dEpdPhi_err hT hu hE hm h1 h2 hx hc φ)
  · left
    unfold TArith.dEpdPhi TArith.theta
    rw [if_neg hc]

/-- Double precision with correctly rounded functions. -/
noncomputable def exTArith : TArith where
  toRArith := exRArith
  sin x := KN.rn (Real.sin x)
  cos x := KN.rn (Real.cos x)
  arccos x := KN.rn (Real.arccos x)

theorem exTArith_accurate : exTArith.Accurate (1 / 2 ^ 53) where
  toAccurate := exRArith_accurate
  sin x := (KN.rn_rounding _).trans (mul_le_mul_of_nonneg_right (by norm_num) (abs_nonneg _))
  cos x := (KN.rn_rounding _).trans (mul_le_mul_of_nonneg_right (by norm_num) (abs_nonneg _))
  arccos x _ := (KN.rn_rounding _).trans (mul_le_mul_of_nonneg_right (by norm_num) (abs_nonneg _))

theorem half_pi_err : |KN.rn (Real.pi / 2) - Real.pi / 2| ≤ 1 / 2 ^ 52 := by
  have := KN.rn_rounding (Real.pi / 2)
  rw [abs_of_pos Real.pi_div_two_pos] at this
  have h4 := Real.pi_lt_four
  norm_num at this ⊢
  linarith

theorem rn_near_one {x : ℝ} (h0 : 1 - 1 / 2 ^ 54 ≤ x) (h1 : x ≤ 1 + 1 / 2 ^ 54) : KN.rn x = 1 := by
  rcases lt_or_ge x 1 with h | h
  · rw [KN.rn_val (-1) (2 ^ 53)] <;> norm_num at h0 h1 ⊢ <;> linarith
  · rw [KN.rn_val 0 (2 ^ 52)] <;> norm_num at h0 h1 ⊢ <;> linarith

theorem rn_sin_half_pi : KN.rn (Real.sin (KN.rn (Real.pi / 2))) = 1 := by
  have hd := half_pi_err
  set d := KN.rn (Real.pi / 2) - Real.pi / 2 with hdd
  have e : KN.rn (Real.pi / 2) = d + Real.pi / 2 := by rw [hdd]; ring
  rw [e, Real.sin_add_pi_div_two]
  have h2 := Real.one_sub_sq_div_two_le_cos (x := d)
  have h3 : d ^ 2 ≤ (1 / 2 ^ 52) ^ 2 := sq_le_sq' (by linarith [(abs_le.1 hd).1]) (abs_le.1 hd).2
  apply rn_near_one
  · norm_num at h3 ⊢; linarith
  · have := Real.cos_le_one d
    norm_num; linarith

/-- C198 is false of polarized photons: perpendicular to the beam, along the polarization, the computed cross section of a photon
of low energy is zero. -/
theorem C198_refuted : ∃ E : ℝ, 0 < E ∧ exTArith.dOmega KN.codata (KN.electron KN.codata 82) E (KN.rn (Real.pi / 2)) 0 = 0 ∧
    0 < (KN.electron KN.codata 82).dOmega KN.codata E (KN.rn (Real.pi / 2)) 0 := by
  have hme := KN.codata.me_pos
  have hE : 0 < KN.codata.me / 2 ^ 60 := by positivity
  refine ⟨KN.codata.me / 2 ^ 60, hE, ?_, ?_⟩
  · have hd := half_pi_err
    have r1 : KN.rn 1 = 1 := by exact_mod_cast KN.rn_exact (n := 1) (by norm_num)
    have r2 : KN.rn 2 = 2 := by exact_mod_cast KN.rn_exact (n := 2) (by norm_num)
    have r0 : KN.rn 0 = 0 := by exact_mod_cast KN.rn_exact (n := 0) (by norm_num)
    have hc : |KN.rn (Real.cos (KN.rn (Real.pi / 2)))| ≤ 1 / 2 ^ 50 := by
      have h1 : |Real.cos (KN.rn (Real.pi / 2))| ≤ 1 / 2 ^ 52 := by
        have := Real.abs_cos_sub_cos_le (KN.rn (Real.pi / 2)) (Real.pi / 2)
        rw [Real.cos_pi_div_two, sub_zero] at this
        exact this.trans hd
      have h2 := KN.rn_rounding (Real.cos (KN.rn (Real.pi / 2)))
      generalize Real.cos (KN.rn (Real.pi / 2)) = c at *
      have := abs_add_le (KN.rn c - c) c
      rw [sub_add_cancel] at this
      norm_num at *
      linarith
    have hr : exTArith.epOverE KN.codata (KN.codata.me / 2 ^ 60) (KN.rn (Real.pi / 2)) = 1 := by
      unfold TArith.epOverE
      show KN.rn (1 / KN.rn (1 + KN.rn (KN.rn (KN.codata.me / 2 ^ 60 / KN.codata.me) *
        KN.rn (1 - KN.rn (Real.cos (KN.rn (Real.pi / 2))))))) = 1
      have e1 : KN.codata.me / 2 ^ 60 / KN.codata.me = 1 / 2 ^ 60 := by field_simp
      rw [e1]
      generalize KN.rn (Real.cos (KN.rn (Real.pi / 2))) = c at *
      have h1 := KN.rn_rounding (1 - c)
      have h1' : |KN.rn (1 - c)| ≤ 4 := by
        have := abs_add_le (KN.rn (1 - c) - (1 - c)) (1 - c)
        rw [sub_add_cancel] at this
        have h' : |1 - c| ≤ 2 := by
          have := abs_sub (1 : ℝ) c
          rw [abs_one] at this
          norm_num at hc
          linarith
        norm_num at h1
        linarith
      have h2 := KN.rn_rounding (1 / 2 ^ 60)
      have h2' : |KN.rn (1 / 2 ^ 60)| ≤ 2 / 2 ^ 60 := by
        have := abs_add_le (KN.rn (1 / 2 ^ 60) - (1 / 2 ^ 60)) (1 / 2 ^ 60)
        rw [sub_add_cancel] at this
        rw [abs_of_pos (by positivity : (0 : ℝ) < 1 / 2 ^ 60)] at this h2
        norm_num at *
        linarith
      have h3 : |KN.rn (1 / 2 ^ 60) * KN.rn (1 - c)| ≤ 2 / 2 ^ 60 * 4 := by
        rw [abs_mul]; exact mul_le_mul h2' h1' (abs_nonneg _) (by positivity)
      generalize KN.rn (1 / 2 ^ 60) * KN.rn (1 - c) = p at *
      have h4 := KN.rn_rounding p
      have h4' : |KN.rn p| ≤ 1 / 2 ^ 54 := by
        have := abs_add_le (KN.rn p - p) p
        rw [sub_add_cancel] at this
        norm_num at *
        linarith
      have h5 := abs_le.mp h4'
      have h6 : KN.rn (1 + KN.rn p) = 1 := rn_near_one (by linarith [h5.1]) (by linarith [h5.2])
      rw [h6, div_one, r1]
    unfold TArith.dOmega
    simp only [hr]
    have hb : exTArith.fl (exTArith.fl (1 + exTArith.fl (1 / 1)) -
        exTArith.fl (exTArith.fl (2 * exTArith.sq (exTArith.sin (KN.rn (Real.pi / 2)))) * exTArith.sq (exTArith.cos 0))) = 0 := by
      show KN.rn (KN.rn (1 + KN.rn (1 / 1)) -
        KN.rn (KN.rn (2 * KN.rn (KN.rn (Real.sin (KN.rn (Real.pi / 2))) ^ 2)) * KN.rn (KN.rn (Real.cos 0) ^ 2))) = 0
      rw [rn_sin_half_pi, Real.cos_zero, r1, one_pow, r1, mul_one, mul_one, r2, r2, div_one, r1, one_add_one_eq_two, r2, sub_self,
        r0]
    rw [hb, mul_zero]
    exact r0
  · unfold KN.dOmega
    simp only [Real.cos_zero, one_pow, mul_one]
    have hp := EpOverE_pos' (k := KN.codata) (θ := KN.rn (Real.pi / 2)) hE
    have hlt : KN.EpOverE KN.codata (KN.codata.me / 2 ^ 60) (KN.rn (Real.pi / 2)) < 1 := by
      unfold KN.EpOverE
      have h1 : |Real.cos (KN.rn (Real.pi / 2))| ≤ 1 / 2 ^ 52 := by
        have := Real.abs_cos_sub_cos_le (KN.rn (Real.pi / 2)) (Real.pi / 2)
        rw [Real.cos_pi_div_two, sub_zero] at this
        exact this.trans half_pi_err
      have h2 := (abs_le.mp h1).2
      have h3 : 0 < 1 - Real.cos (KN.rn (Real.pi / 2)) := by
        norm_num at h2; linarith
      rw [div_lt_one (by positivity)]
      have : 0 < KN.codata.me / 2 ^ 60 / KN.codata.me * (1 - Real.cos (KN.rn (Real.pi / 2))) := by positivity
      linarith
    generalize KN.EpOverE KN.codata (KN.codata.me / 2 ^ 60) (KN.rn (Real.pi / 2)) = r at *
    have hs := Real.sin_sq_le_one (KN.rn (Real.pi / 2))
    have h2 : 2 < r + 1 / r := by
      have e : r + 1 / r - 2 = (1 - r) ^ 2 / r := by field_simp; ring
      have : 0 < (1 - r) ^ 2 / r := by
        have : 0 < 1 - r := by linarith
        positivity
      linarith
    have hsc : 0 < (KN.electron KN.codata 82).scale KN.codata := by
      unfold KN.scale KN.electron
      have := KN.codata.alpha_pos
      have := KN.codata.hbarc_pos
      positivity
    have : 0 < r + 1 / r - 2 * Real.sin (KN.rn (Real.pi / 2)) ^ 2 := by linarith
    positivity

/-- The theorems apply in double precision to electrons of lead and photons of a tenth to ten times the electron mass. -/
example {y : ℝ} (h1 : 1 / 10 ≤ y) (h2 : y ≤ 10) (θ : ℝ) :
    |exTArith.dTheta KN.codata (KN.electron KN.codata 82) (y * KN.codata.me) θ -
        (KN.electron KN.codata 82).dTheta KN.codata (y * KN.codata.me) θ| ≤
      94 * ((y * KN.codata.me / KN.codata.me + 1) * (1 / 2 ^ 53)) *
        |(KN.electron KN.codata 82).dTheta KN.codata (y * KN.codata.me) θ| := by
  have hme := KN.codata.me_pos
  refine (C198_angle exTArith_accurate (by positivity) (by positivity) hme.ne' ?_ θ).2
  rw [mul_div_assoc, div_self hme.ne']
  norm_num at *
  linarith

example {y : ℝ} (h1 : 1 / 10 ≤ y) (h2 : y ≤ 10) : exTArith.dEp KN.codata (KN.electron KN.codata 82) (y * KN.codata.me)
    (y * KN.codata.me / (1 + y)) ≠ .nan := by
  have hme := KN.codata.me_pos
  have hy : 0 < y := by linarith
  have hE : 0 < y * KN.codata.me := by positivity
  have e1 : y * KN.codata.me / KN.codata.me = y := by field_simp
  have e2 : KN.codata.me / (y * KN.codata.me) = 1 / y := by field_simp
  have hy' : 1 / y ≤ 10 := by rw [div_le_iff₀ hy]; linarith
  refine (C198_energy exTArith_accurate (by positivity) hE hme.ne' ?_ ?_ ?_).2 ?_
  · rw [KN.edge_eq, e1]
    gcongr
    linarith
  · exact div_le_self hE.le (by linarith)
  · rw [e1, e2]
    norm_num at *
    linarith
  · have : Real.cos (KN.theta KN.codata (y * KN.codata.me) (y * KN.codata.me / (1 + y))) = 0 := by
      unfold KN.theta
      have : 1 - (y * KN.codata.me / (y * KN.codata.me / (1 + y)) - 1) * KN.codata.me / (y * KN.codata.me) = 0 := by
        field_simp; ring
      rw [this, Real.cos_arccos] <;> norm_num
    rw [this, e2, abs_zero]
    norm_num at *
    linarith

end Ries
