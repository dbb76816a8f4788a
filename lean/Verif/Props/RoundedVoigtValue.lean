import Verif.Model.RoundedVoigtValue
import Verif.Spec.RoundedVoigtValue
import Verif.Lemmas.VoigtRelative
import Verif.Props.RoundedReso
import Verif.Props.Voigt

/-! # Property C202: rounding errors of Voigt cross sections -/

namespace Ries

open KN

variable {u v : ℝ} {A : RArith} {vp : ℝ → ℝ → ℝ → ℝ}

/-- C202: evaluated with rounded operations and with a Voigt routine with relative error `v`, from the level energies and partial widths to the
value at an energy, the Voigt cross section has a small *relative* error at every energy and temperature. For a level with `N` decay channels it
is about `2 N + 35` roundings, and 88 more for each factor `e` by which the value `σ` is below the maximum `P` of the Breit-Wigner cross section. So
there are no energies or widths where digits are lost: the number grows with the logarithm only. -/
theorem C202_voigt (hA : A.Accurate u) (hu : 0 ≤ u) (hu1 : u ≤ 1 / 110) (hv : VoigtAccurate v vp) {k : PhysConst} {init inter : Level} {amu T : ℝ}
    {final : Option Level} {r b : Reso} {w : ℝ} (hr : mkVoigt k init inter amu T final = .ok r) (hb : mkBreitWigner k init inter final = .ok b)
    (hl : inter.Physical) (hw : inter.width = .ok w) (hpos : 0 < w) (ha : 0 < amu) (hT : 0 ≤ T) (hE : init.exc < inter.exc)
    (hex : A.fl (inter.exc - init.exc) = inter.exc - init.exc) (E : ℝ) :
    ∃ P σ σ', b.call b.er = .ok (.fin P) ∧ r.call E = .ok (.fin σ) ∧ A.voigt vp k init inter amu T final E = .ok (.fin σ') ∧
      ((2 * inter.channels + 35 + 88 * Real.log (Real.sqrt 2 * P / σ)) * u + v ≤ 1 / 110 →
        |σ' - σ| ≤ 1.03 * ((2 * inter.channels + 35 + 88 * Real.log (Real.sqrt 2 * P / σ)) * u + v) * |σ|) := by
  have hpi := Real.pi_pos
  have hNN : (0 : ℝ) ≤ inter.channels := Nat.cast_nonneg _
  have hσ := voigt_sigma hr ha hT hE hw hpos E
  obtain ⟨r0, d0, ps0, hr0, -, er0⟩ := build_inv (s := .voigt amu T) hr
  have h0 : mkResonance k init inter final noRecoil = .ok r0 := hr0
  obtain ⟨b0, w', hb0, hw', rfl⟩ := mkBreitWigner_inv hb
  rw [hw] at hw'; cases hw'
  rw [h0] at hb0; cases hb0
  have eer : r.er = r0.er := by rw [er0]
  have eic : r.ics = r0.ics := by rw [er0]
  rw [eer, eic] at hσ
  have her : r0.er = inter.exc - init.exc := (mkResonance_inv h0).1
  set g := w / 2 with hg
  have hg0 : 0 < g := by positivity
  have hw2 : 0.5 * w = g := by rw [hg]; ring
  set d := dopplerWidth k amu T r0.er with hd
  set s := d / Real.sqrt 2 with hs
  have hd0 : 0 ≤ d := by
    have : 0 < r0.er := by rw [her]; linarith
    have := k.u_pos
    have := k.kB_pos
    rw [hd]; unfold dopplerWidth
    positivity
  have hs0 : 0 ≤ s := by positivity
  set V := coldVoigt r0.er g E s with hV
  have hV0 : 0 < V := coldVoigt_pos _ _ _ hg0
  have hv0 : 0 ≤ v := by
    have h := (abs_nonneg _).trans (hv 0 0 1 le_rfl one_pos)
    have hp : 0 < coldVoigt 0 1 0 0 := coldVoigt_pos _ _ _ one_pos
    exact nonneg_of_mul_nonneg_left h hp
  have hu1' : u < 1 := by linarith
  obtain ⟨ics, eics, rics⟩ := RArith.resonance_rel hA hu (by linarith) hl hex h0
  obtain ⟨wr, ewr, rwr, -⟩ := RArith.width_rel hA.fl hu hu1' hl hw
  obtain ⟨d', ed, rd⟩ := RArith.doppler_rel (A := A) hA hu hu1' k ha hT r0.er
  rw [← hd] at rd
  have r2 := RArith.sqrt_rel (A := A) hA hu hu1' (by norm_num : (0 : ℝ) ≤ 2) (Rel.refl (n := 0) hu hu1' 2)
  have rs := (rd.div hu1' r2).round hA.fl hu hu1'
  have rg := ((Rel.refl (n := 0) hu hu1' 0.5).mul hu1' rwr).round hA.fl hu hu1'
  have rx := (Rel.refl (n := 0) hu hu1' (E - r0.er)).round hA.fl hu hu1'
  rw [hw2] at rg
  rw [← hs] at rs
  obtain ⟨θ, hθ1, hθ2, ex⟩ := rx
  have hθ : 0 < θ := (pow_pos (by linarith) _).trans_le hθ1
  have rθ : ∀ a : ℝ, Rel u 1 (a / θ) a := by
    intro a
    refine ⟨θ⁻¹, ?_, ?_, by rw [div_eq_mul_inv]⟩
    · rw [le_inv_comm₀ (pow_pos (by linarith) _) hθ]; simpa using hθ2
    · rw [inv_le_inv₀ hθ (pow_pos (by linarith) _)]; simpa using hθ1
  set s' := A.fl (d' / A.sqrt 2) with hs'
  set g' := A.fl (0.5 * wr) with hg'
  have hg'0 : 0 < g' := rg.pos hu1' hg0
  have hs'0 : 0 ≤ s' := by
    obtain ⟨η, hη, -, e⟩ := rs
    rw [e]
    exact mul_nonneg hs0 ((pow_pos (by linarith) _).le.trans hη)
  set L := Real.log (Real.sqrt 2 / (Real.pi * g * V)) with hL
  have hL0 : 0 ≤ L := coldVoigt_top r0.er E s hg0 hs0
  have hpeak : cauchyPdf r0.er g r0.er = 1 / (Real.pi * g) := by unfold cauchyPdf; simp
  refine ⟨r0.ics * cauchyPdf r0.er g r0.er, r0.ics * V, A.fl (ics * vp (A.fl (E - r0.er)) s' g'), ?_, hσ, ?_, ?_⟩
  · simp only [Reso.call, cauchyDist, scipyDist, locScale, bind, Except.bind, hg0, if_true, Fl.smul, hw2]
  · simp only [RArith.voigt, eics, ewr, ed, bind, Except.bind]
    rfl
  rcases eq_or_ne r0.ics 0 with hi | hi
  · intro _
    have : ics = 0 := (rics.zero_iff hu1').2 hi
    have hf := hA.fl 0
    simp only [sub_zero, abs_zero, mul_zero] at hf
    have hf0 : A.fl 0 = 0 := abs_nonpos_iff.1 hf
    simp [this, hi, hf0]
  have eL : Real.log (Real.sqrt 2 * (r0.ics * cauchyPdf r0.er g r0.er) / (r0.ics * V)) = L := by
    rw [hL, hpeak]
    congr 1
    field_simp
  rw [eL]
  intro hD
  set N : ℝ := (inter.channels : ℝ) with hN
  have hLu : 0 ≤ L * u := mul_nonneg hL0 hu
  have hNu : 0 ≤ N * u := mul_nonneg hNN hu
  have hv1 : v ≤ 1 / 110 := by nlinarith
  have hu2 : u ≤ 1 / 3850 := by nlinarith
  -- the routine
  have n1 : LogNear (1.01 * v) (vp (A.fl (E - r0.er)) s' g') (coldVoigt 0 g' (A.fl (E - r0.er)) s') :=
    LogNear.of_abs hv0 hv1 (coldVoigt_pos _ _ _ hg'0) (hv _ _ _ hs'0 hg'0)
  rw [ex, coldVoigt_rescale hθ] at n1
  -- the difference of the energies
  have n2 := LogNear.of_rel hu hu1 (rθ (coldVoigt 0 (g' / θ) (E - r0.er) (s' / θ)))
  -- the width
  have n3 := coldVoigt_near_gamma 0 (E - r0.er) (s := s' / θ) hg0 (by positivity) (LogNear.of_rel hu hu1 ((rθ g').trans hu1' rg))
  -- the Doppler width
  have n4 : LogNear (1.01 * (11 * u) * (1 + 8 * L)) (coldVoigt 0 g (E - r0.er) (s' / θ)) V := by
    have e : V = coldVoigt 0 g (E - r0.er) s := coldVoigt_shift _ _ _ _
    have rsθ := (rθ s').trans hu1' rs
    rcases hs0.eq_or_lt with hs00 | hs00
    · have : s' / θ = s := by
        rw [← hs00] at rsθ ⊢
        exact (rsθ.zero_iff hu1').2 rfl
      rw [this, ← e]
      exact LogNear.refl (by positivity) _
    · have h := LogNear.of_rel hu hu1 rsθ
      have h := h.mono (ε := 1.01 * (11 * u)) (by push_cast; linarith)
      have := coldVoigt_near_sigma 0 (E - r0.er) hg0 hs00 (by linarith) h
      rw [← e, ← hL] at this
      exact this
  have n5 := ((n1.trans n2).trans n3).trans n4
  have n6 := (LogNear.of_rel hu hu1 rics).mul n5
  have n7 := LogNear.of_rel hu hu1 ((Rel.refl (n := 0) hu hu1' (ics * vp ((E - r0.er) * θ) s' g')).round hA.fl hu hu1')
  have n8 := n7.trans n6
  rw [← ex] at n8
  have n9 := n8.mono (ε := 1.01 * ((2 * N + 35 + 88 * L) * u + v)) (by push_cast; rw [← hN]; ring_nf; linarith)
  refine (n9.abs_le (by linarith)).trans (mul_le_mul_of_nonneg_right ?_ (abs_nonneg _))
  have : 0 ≤ (2 * N + 35 + 88 * L) * u + v := by positivity
  linarith

/-- C202, with a bound in terms of the inputs: in units of half the natural width, `x` is the distance from the resonance and `y` the Doppler
width (divided by √2). The number of roundings grows like the logarithm of `1 + x² + y²`, so no digits are lost
far from the resonance or for wide Doppler broadening. -/
theorem C202_voigt_everywhere (hA : A.Accurate u) (hu : 0 ≤ u) (hu1 : u ≤ 1 / 110) (hv : VoigtAccurate v vp) {k : PhysConst} {init inter : Level}
    {amu T : ℝ} {final : Option Level} {r : Reso} {w : ℝ} (hr : mkVoigt k init inter amu T final = .ok r)
    (hl : inter.Physical) (hw : inter.width = .ok w) (hpos : 0 < w) (ha : 0 < amu) (hT : 0 ≤ T) (hE : init.exc < inter.exc)
    (hex : A.fl (inter.exc - init.exc) = inter.exc - init.exc) (E x y : ℝ) (hx : x = (E - r.er) / (w / 2))
    (hy : y = dopplerWidth k amu T r.er / Real.sqrt 2 / (w / 2))
    (hD : (2 * inter.channels + 35 + 88 * Real.log (Real.sqrt 2 * (1 + x ^ 2 + y ^ 2))) * u + v ≤ 1 / 110) :
    ∃ σ σ', r.call E = .ok (.fin σ) ∧ A.voigt vp k init inter amu T final E = .ok (.fin σ') ∧
      |σ' - σ| ≤ 1.03 * ((2 * inter.channels + 35 + 88 * Real.log (Real.sqrt 2 * (1 + x ^ 2 + y ^ 2))) * u + v) * |σ| := by
  have hpi := Real.pi_pos
  obtain ⟨r0, d0, ps0, hr0, -, er0⟩ := build_inv (s := .voigt amu T) hr
  have h0 : mkResonance k init inter final noRecoil = .ok r0 := hr0
  obtain ⟨b, hb⟩ : ∃ b, mkBreitWigner k init inter final = .ok b := by simp [mkBreitWigner, h0, hw, bind, Except.bind]
  obtain ⟨P, σ, σ', h1, h2, h3, h4⟩ := C202_voigt hA hu hu1 hv hr hb hl hw hpos ha hT hE hex E
  refine ⟨σ, σ', h2, h3, ?_⟩
  have hg0 : 0 < w / 2 := by positivity
  have eP : P = r.ics * (1 / (Real.pi * (w / 2))) := by
    obtain ⟨b0, w', hb0, hw', rfl⟩ := mkBreitWigner_inv hb
    rw [hw] at hw'; cases hw'
    rw [h0] at hb0; cases hb0
    have hw2 : 0.5 * w = w / 2 := by ring
    simp only [Reso.call, cauchyDist, scipyDist, locScale, bind, Except.bind, hw2, hg0, if_true, Fl.smul] at h1
    rw [Except.ok.injEq, Fl.fin.injEq] at h1
    rw [← h1, er0]
    simp [cauchyPdf]
  have eσ : σ = r.ics * coldVoigt r.er (w / 2) E (dopplerWidth k amu T r.er / Real.sqrt 2) := by
    have h := voigt_sigma hr ha hT hE hw hpos E
    rw [h2, Except.ok.injEq, Fl.fin.injEq] at h
    exact h
  have hJ := coldVoigt_jensen r.er E (dopplerWidth k amu T r.er / Real.sqrt 2) hg0
  have hV := coldVoigt_pos r.er E (dopplerWidth k amu T r.er / Real.sqrt 2) hg0
  set V := coldVoigt r.er (w / 2) E (dopplerWidth k amu T r.er / Real.sqrt 2) with hVd
  rw [← hx, ← hy] at hJ
  have hX : 1 ≤ 1 + x ^ 2 + y ^ 2 := by nlinarith [sq_nonneg x, sq_nonneg y]
  have hs2 : (1 : ℝ) ≤ Real.sqrt 2 := Real.one_le_sqrt.2 (by norm_num)
  have hlog : Real.log (Real.sqrt 2 * P / σ) ≤ Real.log (Real.sqrt 2 * (1 + x ^ 2 + y ^ 2)) := by
    rcases eq_or_ne r.ics 0 with hi | hi
    · rw [eσ, hi]
      simp only [zero_mul, div_zero, Real.log_zero]
      exact Real.log_nonneg (by nlinarith)
    · have e : Real.sqrt 2 * P / σ = Real.sqrt 2 * (1 / (Real.pi * (w / 2)) / V) := by
        rw [eP, eσ]
        field_simp
      rw [e]
      refine Real.log_le_log (by positivity) (mul_le_mul_of_nonneg_left ?_ (Real.sqrt_nonneg _))
      rw [div_le_iff₀ hV]
      have h5 := mul_le_mul_of_nonneg_left hJ (by linarith : 0 ≤ 1 + x ^ 2 + y ^ 2)
      rw [mul_div_cancel₀ _ (by linarith : (1 + x ^ 2 + y ^ 2) ≠ 0)] at h5
      exact h5
  have hm := mul_le_mul_of_nonneg_right hlog hu
  have hle : (2 * inter.channels + 35 + 88 * Real.log (Real.sqrt 2 * P / σ)) * u + v ≤
      (2 * inter.channels + 35 + 88 * Real.log (Real.sqrt 2 * (1 + x ^ 2 + y ^ 2))) * u + v := by linarith
  refine (h4 (hle.trans hD)).trans (mul_le_mul_of_nonneg_right ?_ (abs_nonneg _))
  exact mul_le_mul_of_nonneg_left hle (by norm_num)

/-- the exact convolution is an accurate routine -/
theorem coldVoigt_accurate : VoigtAccurate 0 fun x s g => coldVoigt 0 g x s := by
  intro x s g _ _
  change |coldVoigt 0 g x s - coldVoigt 0 g x s| ≤ 0 * coldVoigt 0 g x s
  rw [sub_self, abs_zero, zero_mul]

/-- The excited state at 2 MeV with two channels at room temperature, in double precision and with a routine accurate to `1e-13`: at all energies
up to 10 MeV the relative error is below `2e-13`. -/
example (hv : VoigtAccurate 1e-13 vp) (E : ℝ) (hE : 0 ≤ E) (hE' : E ≤ 10) : ∃ r σ σ', mkVoigt exConst exGround exExcited 11 293 none = .ok r ∧
    r.call E = .ok (.fin σ) ∧ exRArith.voigt vp exConst exGround exExcited 11 293 none E = .ok (.fin σ') ∧ |σ' - σ| ≤ 2e-13 * |σ| := by
  obtain ⟨r, hr, her⟩ := exVoigt 293
  have hc : (exExcited.channels : ℝ) = 2 := by norm_num [Level.channels, exExcited, state]
  have hs2 : Real.sqrt 2 ^ 2 = 2 := Real.sq_sqrt (by norm_num)
  have hs3 : Real.sqrt 2 ≤ 1.5 := Real.sqrt_le_iff.2 (by norm_num)
  set x := (E - r.er) / (4 / 2) with hx
  set y := dopplerWidth exConst 11 293 r.er / Real.sqrt 2 / (4 / 2) with hy
  have hx2 : x ^ 2 ≤ 16 := by
    rw [hx, her]
    nlinarith
  have hy2 : y ^ 2 ≤ 1 := by
    rw [hy, her, div_pow, div_pow, hs2]
    unfold dopplerWidth
    rw [mul_pow, Real.sq_sqrt (by norm_num [exConst])]
    norm_num [exConst]
  have hlog : Real.log (Real.sqrt 2 * (1 + x ^ 2 + y ^ 2)) ≤ 4 := by
    have h1 : Real.sqrt 2 * (1 + x ^ 2 + y ^ 2) ≤ 27 := by nlinarith [sq_nonneg x, sq_nonneg y, Real.sqrt_nonneg 2]
    have h0 : 0 < Real.sqrt 2 * (1 + x ^ 2 + y ^ 2) := by positivity
    rw [Real.log_le_iff_le_exp h0]
    refine h1.trans ?_
    have := Real.exp_one_gt_d9
    have e : Real.exp 4 = Real.exp 1 ^ 4 := by rw [← Real.exp_nat_mul]; norm_num
    rw [e]
    have h5 : (2.7 : ℝ) ^ 4 ≤ Real.exp 1 ^ 4 := pow_le_pow_left₀ (by norm_num) (by linarith) 4
    exact le_trans (by norm_num) h5
  have hb : (2 * (exExcited.channels : ℝ) + 35 + 88 * Real.log (Real.sqrt 2 * (1 + x ^ 2 + y ^ 2))) * (1 / 2 ^ 53) + 1e-13 ≤ 1.9e-13 := by
    rw [hc]
    norm_num
    linarith
  obtain ⟨σ, σ', h1, h2, h3⟩ := C202_voigt_everywhere exRArith_accurate (by norm_num) (by norm_num) hv hr exExcited_physical exExcited_width
    (by norm_num) (by norm_num) (by norm_num) (by norm_num [exExcited, exGround, state, groundState]) exExcited_exact E x y hx hy
    (hb.trans (by norm_num))
  refine ⟨r, σ, σ', hr, h1, h2, h3.trans (mul_le_mul_of_nonneg_right ?_ (abs_nonneg _))⟩
  linarith

end Ries
