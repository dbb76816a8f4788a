import Verif.Props.RoundedVoigtValue

/-! # Property C202 for the density: the hypothesis of C191 on computed densities -/

namespace Ries

open KN

variable {u v : ℝ} {A : RArith} {vp : ℝ → ℝ → ℝ → ℝ}

/-- a routine called with slightly wrong arguments -/
theorem voigt_routine_near (hA : A.Accurate u) (hu : 0 ≤ u) (hu2 : u ≤ 1 / 1000) (hv : VoigtAccurate v vp) (hv0 : 0 ≤ v) (hv1 : v ≤ 1 / 110)
    {x s s' g g' : ℝ} {m : ℕ} (hs0 : 0 ≤ s) (hg0 : 0 < g) (rs : Rel u 10 s' s) (rg : Rel u m g' g) :
    LogNear (1.01 * ((m + 13 + 88 * Real.log (Real.sqrt 2 / (Real.pi * g * coldVoigt 0 g x s))) * u + v)) (vp (A.fl x) s' g')
      (coldVoigt 0 g x s) := by
  have hu1 : u ≤ 1 / 110 := by linarith
  have hu1' : u < 1 := by linarith
  obtain ⟨θ, hθ1, hθ2, ex⟩ := (Rel.refl (n := 0) hu hu1' x).round hA.fl hu hu1'
  have hθ : 0 < θ := (pow_pos (by linarith) _).trans_le hθ1
  have rθ : ∀ a : ℝ, Rel u 1 (a / θ) a := by
    intro a
    refine ⟨θ⁻¹, ?_, ?_, by rw [div_eq_mul_inv]⟩
    · rw [le_inv_comm₀ (pow_pos (by linarith) _) hθ]; simpa using hθ2
    · rw [inv_le_inv₀ hθ (pow_pos (by linarith) _)]; simpa using hθ1
  have hg'0 : 0 < g' := rg.pos hu1' hg0
  have hs'0 : 0 ≤ s' := by
    obtain ⟨η, hη, -, e⟩ := rs
    rw [e]
    exact mul_nonneg hs0 ((pow_pos (by linarith) _).le.trans hη)
  have hL0 := coldVoigt_top 0 x s hg0 hs0
  set L := Real.log (Real.sqrt 2 / (Real.pi * g * coldVoigt 0 g x s)) with hL
  have n1 : LogNear (1.01 * v) (vp (A.fl x) s' g') (coldVoigt 0 g' (A.fl x) s') :=
    LogNear.of_abs hv0 hv1 (coldVoigt_pos _ _ _ hg'0) (hv _ _ _ hs'0 hg'0)
  rw [ex, coldVoigt_rescale hθ] at n1
  have n2 := LogNear.of_rel hu hu1 (rθ (coldVoigt 0 (g' / θ) x (s' / θ)))
  have n3 := coldVoigt_near_gamma 0 x (s := s' / θ) hg0 (by positivity) (LogNear.of_rel hu hu1 ((rθ g').trans hu1' rg))
  have n4 : LogNear (1.01 * (11 * u) * (1 + 8 * L)) (coldVoigt 0 g x (s' / θ)) (coldVoigt 0 g x s) := by
    have rsθ := (rθ s').trans hu1' rs
    rcases hs0.eq_or_lt with hs00 | hs00
    · have : s' / θ = s := by
        rw [← hs00] at rsθ ⊢
        exact (rsθ.zero_iff hu1').2 rfl
      rw [this]
      exact LogNear.refl (by positivity) _
    · have h := (LogNear.of_rel hu hu1 rsθ).mono (ε := 1.01 * (11 * u)) (by push_cast; linarith)
      exact coldVoigt_near_sigma 0 x hg0 hs00 (by linarith) h
  have n5 := ((n1.trans n2).trans n3).trans n4
  rw [← ex] at n5
  exact n5.mono (by push_cast; ring_nf; linarith)

/-- C202 for the density: within the distance `R` from the resonance, the computed density (`pdf` of the distribution of a `Voigt` object) has a
bounded relative error. This is the hypothesis on computed densities of C191 (`FloatVoigt.value`). -/
theorem C202_density (hA : A.Accurate u) (hu : 0 ≤ u) (hu2 : u ≤ 1 / 1000) (hv : VoigtAccurate v vp) {k : PhysConst} {init inter : Level}
    {amu T : ℝ} {final : Option Level} {r : Reso} {w : ℝ} (hr : mkVoigt k init inter amu T final = .ok r)
    (hl : inter.Physical) (hw : inter.width = .ok w) (hpos : 0 < w) (ha : 0 < amu) (hT : 0 ≤ T) (hE : init.exc < inter.exc) (hI : r.ics ≠ 0)
    {R η : ℝ}
    (hη : (inter.channels + 14 + 88 * Real.log (Real.sqrt 2 * (1 + (R / (w / 2)) ^ 2 +
      (dopplerWidth k amu T r.er / Real.sqrt 2 / (w / 2)) ^ 2))) * u + v ≤ η / 1.03) (hη1 : η ≤ 1 / 110) :
    ∃ wr d', A.width inter = .ok wr ∧ A.dopplerWidth k amu T r.er = .ok d' ∧ ∀ x y, r.dist.pdf r.params x = .ok (.fin y) → |x - r.er| ≤ R →
      |vp (A.fl (x - r.er)) (A.fl (d' / A.sqrt 2)) (A.fl (0.5 * wr)) - y| ≤ η * y := by
  have hpi := Real.pi_pos
  have hu1' : u < 1 := by linarith
  have hσ := voigt_sigma hr ha hT hE hw hpos
  have her : r.er = inter.exc - init.exc := (mkVoigt_same hr hr).2.2
  have hg0 : 0 < w / 2 := by positivity
  have hw2 : 0.5 * w = w / 2 := by ring
  have hd0 : 0 ≤ dopplerWidth k amu T r.er := by
    have : 0 < r.er := by rw [her]; linarith
    have := k.u_pos
    have := k.kB_pos
    unfold dopplerWidth
    positivity
  set d := dopplerWidth k amu T r.er with hd
  set s := d / Real.sqrt 2 with hs
  have hs0 : 0 ≤ s := by positivity
  have hv0 : 0 ≤ v := by
    have h := (abs_nonneg _).trans (hv 0 0 1 le_rfl one_pos)
    have hp : 0 < coldVoigt 0 1 0 0 := coldVoigt_pos _ _ _ one_pos
    exact nonneg_of_mul_nonneg_left h hp
  obtain ⟨wr, ewr, rwr, -⟩ := RArith.width_rel hA.fl hu hu1' hl hw
  obtain ⟨d', ed, rd⟩ := RArith.doppler_rel (A := A) hA hu hu1' k ha hT r.er
  rw [← hd] at rd
  have r2 := RArith.sqrt_rel (A := A) hA hu hu1' (by norm_num : (0 : ℝ) ≤ 2) (Rel.refl (n := 0) hu hu1' 2)
  have rs : Rel u 10 (A.fl (d' / A.sqrt 2)) s := (rd.div hu1' r2).round hA.fl hu hu1'
  have rg := ((Rel.refl (n := 0) hu hu1' 0.5).mul hu1' rwr).round hA.fl hu hu1'
  rw [hw2] at rg
  refine ⟨wr, d', ewr, ed, fun x y hy hx => ?_⟩
  have ey : y = coldVoigt 0 (w / 2) (x - r.er) s := by
    have h := hσ x
    simp only [Reso.call, if_true, hy, bind, Except.bind, Fl.smul] at h
    rw [Except.ok.injEq, Fl.fin.injEq] at h
    rw [← coldVoigt_shift]
    exact mul_left_cancel₀ hI h
  have hV := coldVoigt_pos 0 (x - r.er) s hg0
  have hJ := coldVoigt_jensen 0 (x - r.er) s hg0
  have hL0 := coldVoigt_top 0 (x - r.er) s hg0 hs0
  have hlog : Real.log (Real.sqrt 2 / (Real.pi * (w / 2) * coldVoigt 0 (w / 2) (x - r.er) s)) ≤
      Real.log (Real.sqrt 2 * (1 + (R / (w / 2)) ^ 2 + (s / (w / 2)) ^ 2)) := by
    refine Real.log_le_log (by positivity) ?_
    rw [sub_zero] at hJ
    have h1 : ((x - r.er) / (w / 2)) ^ 2 ≤ (R / (w / 2)) ^ 2 := by
      rw [div_pow (x - r.er), div_pow R]
      have hx2 : (x - r.er) ^ 2 ≤ R ^ 2 := by
        rw [← sq_abs (x - r.er)]
        exact pow_le_pow_left₀ (abs_nonneg _) hx 2
      exact div_le_div_of_nonneg_right hx2 (by positivity)
    have hX : 0 < 1 + ((x - r.er) / (w / 2)) ^ 2 + (s / (w / 2)) ^ 2 := by positivity
    rw [div_le_iff₀ hX, div_le_iff₀ (by positivity : 0 < Real.pi * (w / 2))] at hJ
    rw [div_le_iff₀ (by positivity : 0 < Real.pi * (w / 2) * coldVoigt 0 (w / 2) (x - r.er) s), mul_assoc]
    refine le_mul_of_one_le_right (Real.sqrt_nonneg _) ?_
    have h2 := mul_le_mul_of_nonneg_right h1 (by positivity : 0 ≤ Real.pi * (w / 2) * coldVoigt 0 (w / 2) (x - r.er) s)
    linarith
  have hN : (0 : ℝ) ≤ inter.channels := Nat.cast_nonneg _
  have hlu := mul_le_mul_of_nonneg_right hlog hu
  have hη' : ((inter.channels + 14 + 88 * Real.log (Real.sqrt 2 / (Real.pi * (w / 2) * coldVoigt 0 (w / 2) (x - r.er) s))) * u + v) ≤ η / 1.03 := by
    linarith
  set L := Real.log (Real.sqrt 2 / (Real.pi * (w / 2) * coldVoigt 0 (w / 2) (x - r.er) s))
  have hLu : 0 ≤ (inter.channels + 14 + 88 * L) * u := by positivity
  have hη0 : η / 1.03 ≤ η := by
    have : 0 ≤ η / 1.03 := by linarith
    have h2 : η = 1.03 * (η / 1.03) := by ring
    linarith
  have n := voigt_routine_near (x := x - r.er) hA hu hu2 hv hv0 (by linarith) hs0 hg0 rs rg
  have h := (n.mono (ε := 1.01 * (η / 1.03)) (by push_cast; linarith)).abs_le (by linarith)
  rw [ey]
  refine h.trans ?_
  rw [abs_of_pos hV]
  refine mul_le_mul_of_nonneg_right ?_ hV.le
  have : 0 ≤ η / 1.03 := by linarith
  have h2 : η = 1.03 * (η / 1.03) := by ring
  linarith

/-- The excited state at 2 MeV at room temperature, up to 1 MeV from the resonance: an error of `3e-13` with a routine accurate to `1e-13`. -/
example (hv : VoigtAccurate 1e-13 vp) : ∃ r wr d', mkVoigt exConst exGround exExcited 11 293 none = .ok r ∧ exRArith.width exExcited = .ok wr ∧
    exRArith.dopplerWidth exConst 11 293 r.er = .ok d' ∧ ∀ x y, r.dist.pdf r.params x = .ok (.fin y) → |x - r.er| ≤ 1 →
      |vp (exRArith.fl (x - r.er)) (exRArith.fl (d' / exRArith.sqrt 2)) (exRArith.fl (0.5 * wr)) - y| ≤ 3e-13 * y := by
  obtain ⟨r, hr, he⟩ := exVoigt 293
  have hI : r.ics ≠ 0 := by
    obtain ⟨r0, d0, ps0, hr0, -, er0⟩ := build_inv (s := .voigt 11 293) hr
    have h0 : mkResonance exConst exGround exExcited none noRecoil = .ok r0 := hr0
    obtain ⟨r1, h1, hI⟩ : ∃ r, mkResonance exConst exGround exExcited none noRecoil = .ok r ∧ 0 < r.ics := by
      simp [mkResonance, statFactor, fdiv, branchingRatio, integratedCS, exGround, exExcited, groundState, state,
        Level.partialWidths, lookup, bind, Except.bind, noRecoil]
      norm_num
      have := exConst.hbarc_pos
      positivity
    rw [h0] at h1; cases h1
    rw [er0]; exact hI.ne'
  have hc : (exExcited.channels : ℝ) = 2 := by norm_num [Level.channels, exExcited, state]
  have hs2 : Real.sqrt 2 ^ 2 = 2 := Real.sq_sqrt (by norm_num)
  have hs3 : Real.sqrt 2 ≤ 1.5 := Real.sqrt_le_iff.2 (by norm_num)
  have hy2 : (dopplerWidth exConst 11 293 r.er / Real.sqrt 2 / (4 / 2)) ^ 2 ≤ 1 := by
    rw [he, div_pow, div_pow, hs2]
    unfold dopplerWidth
    rw [mul_pow, Real.sq_sqrt (by norm_num [exConst])]
    norm_num [exConst]
  have hlog : Real.log (Real.sqrt 2 * (1 + (1 / (4 / 2)) ^ 2 + (dopplerWidth exConst 11 293 r.er / Real.sqrt 2 / (4 / 2)) ^ 2)) ≤ 4 := by
    set y := dopplerWidth exConst 11 293 r.er / Real.sqrt 2 / (4 / 2)
    have h0 : 0 < Real.sqrt 2 * (1 + (1 / (4 / 2) : ℝ) ^ 2 + y ^ 2) := by positivity
    have h1 : Real.sqrt 2 * (1 + (1 / (4 / 2) : ℝ) ^ 2 + y ^ 2) ≤ 5 := by norm_num; nlinarith [sq_nonneg y, Real.sqrt_nonneg 2]
    have := Real.log_le_sub_one_of_pos h0
    linarith
  obtain ⟨wr, d', h1, h2, h3⟩ := C202_density (R := 1) (η := 3e-13) exRArith_accurate (by norm_num) (by norm_num) hv hr exExcited_physical
    exExcited_width (by norm_num) (by norm_num) (by norm_num) (by norm_num [exExcited, exGround, state, groundState]) hI
    (by rw [hc]; norm_num at hlog ⊢; linarith) (by norm_num)
  exact ⟨r, wr, d', hr, h1, h2, h3⟩

end Ries
