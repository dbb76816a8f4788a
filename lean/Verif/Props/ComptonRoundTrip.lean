import Verif.Props.RoundedComptonAngles

/-! # Property C199: scattering angles and energies as inverses of each other in floating point -/

namespace Ries

open TArith

variable {T : TArith} {k : PhysConst} {u E Ep θ : ℝ}

/-- C199, the part that holds: the energy that belongs to the computed scattering angle of a possible energy is this energy, up to
forty roundings times the ratios of the energy and the mass of the electron. -/
theorem C199_partial (hT : T.Accurate u) (hu : 0 ≤ u) (hE : 0 < E) (h1 : KN.comptonEdge k E ≤ Ep) (h2 : Ep ≤ E)
    (hx : (E / k.me + 1 + k.me / E) * u ≤ 1 / 1000) (hθ : T.theta k E Ep = .fin θ) :
    |T.fl (E * T.epOverE k E θ) - Ep| ≤ 38 * ((E / k.me + 1 + k.me / E) * u) * Ep := by
  have hc : |T.cosTheta k E Ep| ≤ 1 := by
    by_contra hc
    unfold TArith.theta at hθ
    rw [if_neg hc] at hθ
    simp at hθ
  have e : θ = T.arccos (T.cosTheta k E Ep) := by
    unfold TArith.theta at hθ
    rw [if_pos hc, Fl.fin.injEq] at hθ
    exact hθ.symm
  have hx0 : 0 < E / k.me := div_pos hE k.me_pos
  have hy : 0 < k.me / E := div_pos k.me_pos hE
  obtain ⟨huv, hxu⟩ := dEp_arith' hx0 hy hu
  obtain ⟨hp, -, -⟩ := KN.theta_cos k hE h1 h2
  have h45 := cos_theta_err hT hu hE h1 h2 hx hc
  rw [← e] at h45
  have hv0 : 0 ≤ (E / k.me + 1 + k.me / E) * u := by positivity
  have hA := ratio_continuous hE hv0 hx h45.2
  rw [KN.EpOverE_theta k hE h1 h2] at hA
  have hB := hA.round hv0 hx (by norm_num) le_rfl (epOverE_re hT hu hE hx hxu (θ := θ)) (by norm_num) (e := (36.3 : ℝ))
    (by norm_num)
  have hC := ((RE.refl ((E / k.me + 1 + k.me / E) * u) E).mul hv0 hx le_rfl (by norm_num) hB (e := (36.3 : ℝ)) (by norm_num)).fl
    hT.fl hv0 hx (by norm_num) huv (e := 38) (by norm_num)
  rw [mul_div_cancel₀ _ hE.ne'] at hC
  unfold RE at hC
  rwa [abs_of_pos hp] at hC

/-- C199 is false of angles: for every energy, all scattering angles below 2^-28 come back as zero. -/
theorem C199_refuted (k : PhysConst) {E θ : ℝ} (hE : 0 < E) (hd : KN.rn E = E) (h0 : 0 < θ) (h1 : θ ≤ 1 / 2 ^ 28) :
    exTArith.theta k E (exTArith.fl (E * exTArith.epOverE k E θ)) = .fin 0 := by
  have r1 : KN.rn 1 = 1 := by exact_mod_cast KN.rn_exact (n := 1) (by norm_num)
  have r0 : KN.rn 0 = 0 := by exact_mod_cast KN.rn_exact (n := 0) (by norm_num)
  have hc : KN.rn (Real.cos θ) = 1 := by
    apply rn_near_one
    · have h2 := Real.one_sub_sq_div_two_le_cos (x := θ)
      have h3 : θ ^ 2 ≤ (1 / 2 ^ 28) ^ 2 := pow_le_pow_left₀ h0.le h1 2
      norm_num at h3 ⊢; linarith
    · have := Real.cos_le_one θ
      norm_num; linarith
  have hr : exTArith.epOverE k E θ = 1 := by
    show KN.rn (1 / KN.rn (1 + KN.rn (KN.rn (E / k.me) * KN.rn (1 - KN.rn (Real.cos θ))))) = 1
    rw [hc, sub_self, r0, mul_zero, r0, add_zero, r1, div_one, r1]
  have hcos : exTArith.cosTheta k E E = 1 := by
    show KN.rn (1 - KN.rn (KN.rn (KN.rn (KN.rn (E / E) - 1) * k.me) / E)) = 1
    rw [div_self hE.ne', r1, sub_self, r0, zero_mul, r0, zero_div, r0, sub_zero, r1]
  have hfl : exTArith.fl E = E := hd
  rw [hr, mul_one, hfl]
  unfold TArith.theta
  rw [hcos, if_pos (by norm_num)]
  show Fl.fin (KN.rn (Real.arccos 1)) = _
  rw [Real.arccos_one, r0]

/-- The hypotheses are met: photons of three electron masses, scattered to half of their energy in double precision. -/
example : ∃ θ, exTArith.theta KN.codata (3 * KN.codata.me) (3 * KN.codata.me / 2) = .fin θ ∧
    |exTArith.fl (3 * KN.codata.me * exTArith.epOverE KN.codata (3 * KN.codata.me) θ) - 3 * KN.codata.me / 2| ≤
      38 * ((3 * KN.codata.me / KN.codata.me + 1 + KN.codata.me / (3 * KN.codata.me)) * (1 / 2 ^ 53)) *
        (3 * KN.codata.me / 2) := by
  have hme := KN.codata.me_pos
  have e1 : 3 * KN.codata.me / KN.codata.me = 3 := by field_simp
  have e2 : KN.codata.me / (3 * KN.codata.me) = 1 / 3 := by field_simp
  have h1 : KN.comptonEdge KN.codata (3 * KN.codata.me) ≤ 3 * KN.codata.me / 2 := by
    rw [KN.edge_eq, e1]
    gcongr
    norm_num
  have h2 : 3 * KN.codata.me / 2 ≤ 3 * KN.codata.me := by linarith
  have hx : (3 * KN.codata.me / KN.codata.me + 1 + KN.codata.me / (3 * KN.codata.me)) * (1 / 2 ^ 53 : ℝ) ≤ 1 / 1000 := by
    rw [e1, e2]; norm_num
  have hn := (C198_energy (s := KN.electron KN.codata 82) exTArith_accurate (by positivity) (by positivity) hme.ne' h1 h2 hx).2
    (by
      have : Real.cos (KN.theta KN.codata (3 * KN.codata.me) (3 * KN.codata.me / 2)) = 2 / 3 := by
        unfold KN.theta
        have : 1 - (3 * KN.codata.me / (3 * KN.codata.me / 2) - 1) * KN.codata.me / (3 * KN.codata.me) = 2 / 3 := by
          field_simp; norm_num
        rw [this, Real.cos_arccos] <;> norm_num
      rw [this, e2, abs_of_pos (by norm_num)]
      norm_num)
  have hθ : ∃ θ, exTArith.theta KN.codata (3 * KN.codata.me) (3 * KN.codata.me / 2) = .fin θ := by
    unfold TArith.dEp TArith.theta at hn
    unfold TArith.theta
    split_ifs at hn ⊢ with h
    · exact ⟨_, rfl⟩
    · exact absurd rfl hn
  obtain ⟨θ, hθ⟩ := hθ
  exact ⟨θ, hθ, C199_partial exTArith_accurate (by positivity) (by positivity) h1 h2 hx hθ⟩

end Ries
