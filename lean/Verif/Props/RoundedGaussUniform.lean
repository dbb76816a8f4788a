import Verif.Props.RoundedReso
import Mathlib.Analysis.Complex.ExponentialBounds

/-! # Property C95: absolute error of Gauss cross sections at all energies -/

namespace Ries

open KN

variable {u : ℝ} {A : RArith}

theorem gauss_wing_bound (x : ℝ) : x * Real.exp (-x) ≤ 0.37 := by
  have h1 : x ≤ Real.exp (x - 1) := by
    have := Real.add_one_le_exp (x - 1)
    linarith
  have h2 : x * Real.exp (-x) ≤ Real.exp (x - 1) * Real.exp (-x) := mul_le_mul_of_nonneg_right h1 (Real.exp_pos _).le
  have e : Real.exp (x - 1) * Real.exp (-x) = (Real.exp 1)⁻¹ := by rw [← Real.exp_add, ← Real.exp_neg]; congr 1; ring
  rw [e] at h2
  refine h2.trans ?_
  rw [inv_le_comm₀ (Real.exp_pos _) (by norm_num)]
  have := Real.exp_one_gt_d9
  norm_num
  linarith

/-- C95, at all energies: relative to the maximum `P` of the cross section, the error is `N + 53` roundings everywhere, without a restriction to a
neighbourhood of the resonance. In the wings, the growing relative error is compensated by the decrease of the cross section. -/
theorem C95_uniform (hA : A.Accurate u) (hu : 0 ≤ u) {k : PhysConst} {init inter : Level} {amu T : ℝ} {final : Option Level} {r : Reso}
    (hr : mkGauss k init inter amu T final = .ok r) (hl : inter.Physical) (ha : 0 < amu) (hT : 0 < T) (hE : init.exc < inter.exc)
    (hex : A.fl (inter.exc - init.exc) = inter.exc - init.exc) (hN : (inter.channels + 41 : ℝ) * u ≤ 1 / 400) :
    ∃ P, r.call r.er = .ok (.fin P) ∧ ∀ E, ∃ σ σ', r.call E = .ok (.fin σ) ∧ A.gauss k init inter amu T final E = .ok (.fin σ') ∧
      |σ' - σ| ≤ 1.03 * (inter.channels + 53) * u * |P| := by
  have hNN : (0 : ℝ) ≤ inter.channels := Nat.cast_nonneg _
  obtain ⟨r0, h0, -, rfl⟩ := mkGauss_inv hr
  have her : r0.er = inter.exc - init.exc := (mkResonance_inv h0).1
  have hpos : 0 < r0.er := by rw [her]; linarith
  have hd : 0 < dopplerWidth k amu T r0.er := by
    unfold dopplerWidth
    have := k.u_pos
    have := k.kB_pos
    positivity
  set d := dopplerWidth k amu T r0.er with hddef
  have hu2 : u ≤ 1 / 16000 := by nlinarith
  have hu1 : u ≤ 1 / 100 := by linarith
  have hu1' : u < 1 := by linarith
  obtain ⟨ics, eics, rics⟩ := RArith.resonance_rel hA hu hu1 hl hex h0
  obtain ⟨d', ed, rd⟩ := RArith.doppler_rel (A := A) hA hu hu1' k ha hT.le r0.er
  rw [← hddef] at rd
  have r2 := RArith.sqrt_rel (A := A) hA hu hu1' (by norm_num : (0 : ℝ) ≤ 2) (Rel.refl (n := 0) hu hu1' 2)
  have rs := (rd.div hu1' r2).round hA.fl hu hu1'
  have hs : 0 < d / Real.sqrt 2 := by positivity
  have hs' : 0 < A.fl (d' / A.sqrt 2) := rs.pos hu1' hs
  refine ⟨r0.ics * normPdf r0.er (d / Real.sqrt 2) r0.er, ?_, fun E => ?_⟩
  · simp only [Reso.call, normDist, scipyDist, locScale, bind, Except.bind, hs, if_true, Fl.smul]
  set t := ((E - r0.er) / d) ^ 2 with ht
  have ht0 : 0 ≤ t := sq_nonneg _
  obtain ⟨δ, hδ, rp⟩ := RArith.norm_rel (l := r0.er) hA hu hu1 rs (by norm_num; linarith) E
  have et : ((E - r0.er) / (d / Real.sqrt 2)) ^ 2 / 2 = t := by
    rw [ht, div_pow, div_pow, div_pow, Real.sq_sqrt (by norm_num)]
    field_simp
  rw [et] at hδ
  norm_num at hδ
  have rv := (rics.mul hu1' rp).round hA.fl hu hu1'
  refine ⟨r0.ics * normPdf r0.er (d / Real.sqrt 2) E, A.fl (ics * A.normPdf r0.er (A.fl (d' / A.sqrt 2)) E), ?_, ?_, ?_⟩
  · simp only [Reso.call, normDist, scipyDist, locScale, bind, Except.bind, hs, if_true, Fl.smul]
  · simp only [RArith.gauss, eics, ed, bind, Except.bind, hs', if_true]
  set P := r0.ics * normPdf r0.er (d / Real.sqrt 2) r0.er with hP
  have eσ : r0.ics * normPdf r0.er (d / Real.sqrt 2) E = P * Real.exp (-t) := by
    rw [hP]
    unfold normPdf
    rw [neg_div, et]
    simp only [sub_self, zero_div, ne_eq, OfNat.ofNat_ne_zero, not_false_eq_true, zero_pow, neg_zero, Real.exp_zero]
    ring
  set σ' := A.fl (ics * A.normPdf r0.er (A.fl (d' / A.sqrt 2)) E)
  rw [← mul_assoc, eσ, mul_assoc, ← Real.exp_add] at rv
  rw [eσ]
  set N : ℝ := (inter.channels : ℝ) with hNd
  have h1 := (rv.mono hu hu1' (m := inter.channels + 41) (by omega)).abs_le hu (by push_cast; rw [← hNd]; linarith)
  push_cast at h1
  rw [← hNd, abs_mul, abs_of_pos (Real.exp_pos _)] at h1
  have hut : 0 ≤ u * t := mul_nonneg hu ht0
  have hδ' : |δ| ≤ 30.3 * (u * t) := by linarith
  have h2 : Real.exp (-t + δ) ≤ 1 := by
    rw [Real.exp_le_one_iff]
    have := (abs_le.1 hδ').2
    nlinarith
  -- the error of the exponent
  have h3 : |Real.exp (-t + δ) - Real.exp (-t)| ≤ 11.5 * u := by
    have k1 : |Real.exp (-t + δ) - Real.exp (-t)| ≤ |δ| * Real.exp (-t + |δ|) := by
      have key : ∀ x y : ℝ, Real.exp y - Real.exp x ≤ (y - x) * Real.exp y := by
        intro x y
        have := Real.add_one_le_exp (x - y)
        have h := mul_le_mul_of_nonneg_right this (Real.exp_pos y).le
        rw [← Real.exp_add, sub_add_cancel] at h
        linarith
      rw [abs_le]
      constructor
      · have k2 := key (-t + δ) (-t)
        have k3 : (-t - (-t + δ)) * Real.exp (-t) ≤ |δ| * Real.exp (-t + |δ|) := by
          have e1 : Real.exp (-t) ≤ Real.exp (-t + |δ|) := Real.exp_le_exp.2 (by linarith [abs_nonneg δ])
          have e2 : -t - (-t + δ) ≤ |δ| := by linarith [neg_abs_le δ]
          exact mul_le_mul e2 e1 (Real.exp_pos _).le (abs_nonneg _)
        linarith
      · have k2 := key (-t) (-t + δ)
        have k3 : (-t + δ - -t) * Real.exp (-t + δ) ≤ |δ| * Real.exp (-t + |δ|) := by
          have e1 : Real.exp (-t + δ) ≤ Real.exp (-t + |δ|) := Real.exp_le_exp.2 (by linarith [le_abs_self δ])
          have e2 : -t + δ - -t ≤ |δ| := by linarith [le_abs_self δ]
          exact mul_le_mul e2 e1 (Real.exp_pos _).le (abs_nonneg _)
        linarith
    have hc : u * t ≤ 1 / 16000 * t := mul_le_mul_of_nonneg_right hu2 ht0
    have k4 : Real.exp (-t + |δ|) ≤ Real.exp (-(0.998 * t)) := Real.exp_le_exp.2 (by linarith)
    have k5 : |δ| * Real.exp (-t + |δ|) ≤ 30.3 * (u * t) * Real.exp (-(0.998 * t)) :=
      mul_le_mul hδ' k4 (Real.exp_pos _).le (by positivity)
    have k6 := gauss_wing_bound (0.998 * t)
    have k7 := mul_le_mul_of_nonneg_left k6 (by positivity : 0 ≤ 30.3 / 0.998 * u)
    have e3 : 30.3 / 0.998 * u * (0.998 * t * Real.exp (-(0.998 * t))) = 30.3 * (u * t) * Real.exp (-(0.998 * t)) := by ring
    rw [e3] at k7
    refine k1.trans (k5.trans (k7.trans ?_))
    have : (30.3 / 0.998 * 0.37 : ℝ) ≤ 11.5 := by norm_num
    nlinarith
  have h4 : |σ' - P * Real.exp (-t)| ≤ |σ' - P * Real.exp (-t + δ)| + |P| * |Real.exp (-t + δ) - Real.exp (-t)| := by
    rw [← abs_mul]
    have : σ' - P * Real.exp (-t) = (σ' - P * Real.exp (-t + δ)) + P * (Real.exp (-t + δ) - Real.exp (-t)) := by ring
    rw [this]
    exact abs_add_le _ _
  have h5 := mul_le_mul_of_nonneg_left h3 (abs_nonneg P)
  have h6 : 1.01 * (N + 41) * u * (|P| * Real.exp (-t + δ)) ≤ 1.01 * (N + 41) * u * (|P| * 1) := by gcongr
  have h7 : 0 ≤ N * u * |P| := by positivity
  have h8 : 0 ≤ u * |P| := by positivity
  refine h4.trans ?_
  linarith

/-- The excited state at 2 MeV at room temperature, at all energies: the error is below `7e-15` of the maximum. -/
example : ∃ r P, mkGauss exConst exGround exExcited 11 293 none = .ok r ∧ r.call r.er = .ok (.fin P) ∧ ∀ E, ∃ σ σ', r.call E = .ok (.fin σ) ∧
    exRArith.gauss exConst exGround exExcited 11 293 none E = .ok (.fin σ') ∧ |σ' - σ| ≤ 7e-15 * |P| := by
  obtain ⟨r, h, -⟩ := exGauss
  have hc : (exExcited.channels : ℝ) = 2 := by norm_num [Level.channels, exExcited, state]
  obtain ⟨P, h1, h2⟩ := C95_uniform exRArith_accurate (by norm_num) h exExcited_physical (by norm_num) (by norm_num)
    (by norm_num [exExcited, exGround, state, groundState]) exExcited_exact (by rw [hc]; norm_num)
  refine ⟨r, P, h, h1, fun E => ?_⟩
  obtain ⟨σ, σ', h3, h4, h5⟩ := h2 E
  refine ⟨σ, σ', h3, h4, h5.trans (mul_le_mul_of_nonneg_right ?_ (abs_nonneg _))⟩
  rw [hc]; norm_num

end Ries
