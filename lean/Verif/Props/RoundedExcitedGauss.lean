import Verif.Props.RoundedExcited

/-! # Property C203: rounding of the difference of the level energies, Gauss cross section -/

namespace Ries

open KN

variable {u : ℝ} {A : RArith}

/-- change of the exponent of the normal distribution -/
theorem exponent_shift {a b β ρ u : ℝ} (hu : 0 ≤ u) (hu1 : u ≤ 1 / 4000) (h1 : 1 - u ≤ ρ) (h2 : ρ ≤ 1 + u) (hb : |b| ≤ β) :
    |((a - b) / ρ) ^ 2 - a ^ 2| ≤ 1.001 * (2 * |a| * β + β ^ 2) + 2.01 * u * a ^ 2 := by
  have hρ : 0 < ρ := by linarith
  set c := 1 / ρ ^ 2 with hc
  have hρ2 : 0 < ρ ^ 2 := by positivity
  have hc0 : 0 < c := by positivity
  have hc1 : c ≤ 1.001 := by
    rw [hc, div_le_iff₀ hρ2]
    nlinarith
  have hc2 : |c - 1| ≤ 2.01 * u := by
    have e : c * ρ ^ 2 = 1 := by rw [hc]; field_simp
    rw [abs_le]
    constructor
    · have : 1 - 2.01 * u ≤ c := by
        rw [hc, le_div_iff₀ hρ2]
        have : ρ ^ 2 ≤ (1 + u) ^ 2 := pow_le_pow_left₀ hρ.le h2 2
        have h3 := mul_le_mul_of_nonneg_left this (by linarith : 0 ≤ 1 - 2.01 * u)
        nlinarith [mul_nonneg hu hu, mul_nonneg (mul_nonneg hu hu) hu]
      linarith
    · have : c ≤ 1 + 2.01 * u := by
        rw [hc, div_le_iff₀ hρ2]
        have : (1 - u) ^ 2 ≤ ρ ^ 2 := pow_le_pow_left₀ (by linarith) h1 2
        have h3 := mul_le_mul_of_nonneg_left this (by linarith : 0 ≤ 1 + 2.01 * u)
        nlinarith [mul_nonneg hu hu, mul_nonneg (mul_nonneg hu hu) hu]
      linarith
  have e : ((a - b) / ρ) ^ 2 - a ^ 2 = c * (b ^ 2 - 2 * (a * b)) + (c - 1) * a ^ 2 := by
    rw [hc]
    field_simp
    ring
  have hβ : 0 ≤ β := (abs_nonneg _).trans hb
  have h3 : |b ^ 2 - 2 * (a * b)| ≤ 2 * |a| * β + β ^ 2 := by
    refine (abs_sub _ _).trans ?_
    rw [abs_mul, abs_mul, abs_two, abs_of_nonneg (sq_nonneg b), ← sq_abs b]
    have h4 : |b| ^ 2 ≤ β ^ 2 := pow_le_pow_left₀ (abs_nonneg _) hb 2
    have h5 := mul_le_mul_of_nonneg_left hb (abs_nonneg a)
    linarith
  rw [e]
  refine (abs_add_le _ _).trans ?_
  rw [abs_mul, abs_mul, abs_of_pos hc0, abs_of_nonneg (sq_nonneg a)]
  have h6 : c * |b ^ 2 - 2 * (a * b)| ≤ 1.001 * (2 * |a| * β + β ^ 2) := mul_le_mul hc1 h3 (abs_nonneg _) (by norm_num)
  have h7 := mul_le_mul_of_nonneg_right hc2 (sq_nonneg a)
  linarith

/-- C203: the Gauss cross section. Here the shift of the resonance counts in units of the Doppler width `Δ` instead of the natural width, and grows with
the distance `a` from the resonance in these units. The ratio `q = E_r / Δ` depends on the mass and the temperature only. -/
theorem C203_gauss (hA : A.Accurate u) (hu : 0 ≤ u) {k : PhysConst} {init inter : Level} {amu T : ℝ} {final : Option Level} {r : Reso}
    (hr : mkGauss k init inter amu T final = .ok r) (hl : inter.Physical) (ha : 0 < amu) (hT : 0 < T) (hE : init.exc < inter.exc) (E a q : ℝ)
    (hda : a = |E - r.er| / dopplerWidth k amu T r.er) (hdq : q = r.er / dopplerWidth k amu T r.er)
    (hN : (inter.channels + 44 + 33 * a ^ 2 + 2.1 * a * q) * u + 1.1 * (q * u) ^ 2 ≤ 1 / 200) :
    ∃ σ σ', r.call E = .ok (.fin σ) ∧ A.gauss k init inter amu T final E = .ok (.fin σ') ∧
      |σ' - σ| ≤ 1.03 * ((inter.channels + 44 + 33 * a ^ 2 + 2.1 * a * q) * u + 1.1 * (q * u) ^ 2) * |σ| := by
  have hNN : (0 : ℝ) ≤ inter.channels := Nat.cast_nonneg _
  obtain ⟨r0, h0, -, rfl⟩ := mkGauss_inv hr
  have her : r0.er = inter.exc - init.exc := (mkResonance_inv h0).1
  have hpos : 0 < r0.er := by rw [her]; linarith
  simp only at hda hdq ⊢
  have hD : ∀ {e : ℝ}, 0 < e → 0 < dopplerWidth k amu T e := by
    intro e he
    unfold dopplerWidth
    have := k.u_pos
    have := k.kB_pos
    positivity
  have hd := hD hpos
  set d := dopplerWidth k amu T r0.er with hddef
  have ha0 : 0 ≤ a := by rw [hda]; positivity
  have hq0 : 0 < q := by rw [hdq]; positivity
  set N : ℝ := (inter.channels : ℝ) with hNd
  have hNu : 0 ≤ N * u := mul_nonneg hNN hu
  have hau : 0 ≤ a ^ 2 * u := by positivity
  have haq : 0 ≤ a * q * u := by positivity
  have hqq := sq_nonneg (q * u)
  have hu3 : u ≤ 1 / 8800 := by nlinarith
  have hu2 : u ≤ 1 / 4000 := by linarith
  have hu1 : u ≤ 1 / 110 := by linarith
  have hu1' : u < 1 := by linarith
  obtain ⟨ics, eics, rics, re⟩ := RArith.resonance_rel_shifted hA hu (by linarith) hl h0
  set e' := A.fl r0.er with he'
  have he'0 : 0 < e' := re.pos hu1' hpos
  obtain ⟨d', ed, rd⟩ := RArith.doppler_rel (A := A) hA hu hu1' k ha hT.le e'
  have hd1 := hD he'0
  set d1 := dopplerWidth k amu T e' with hd1def
  have r2 := RArith.sqrt_rel (A := A) hA hu hu1' (by norm_num : (0 : ℝ) ≤ 2) (Rel.refl (n := 0) hu hu1' 2)
  have rs := (rd.div hu1' r2).round hA.fl hu hu1'
  have hs : 0 < d / Real.sqrt 2 := by positivity
  have hs1 : 0 < d1 / Real.sqrt 2 := by positivity
  have hs' : 0 < A.fl (d' / A.sqrt 2) := rs.pos hu1' hs1
  obtain ⟨δ, hδ, rp⟩ := RArith.norm_rel (l := e') hA hu (by linarith) rs (by norm_num; linarith) E
  have et : ∀ x y : ℝ, (x / (y / Real.sqrt 2)) ^ 2 / 2 = (x / y) ^ 2 := by
    intro x y
    rw [div_pow, div_pow, div_pow, Real.sq_sqrt (by norm_num)]
    rcases eq_or_ne y 0 with rfl | hy
    · simp
    · field_simp
  rw [et] at hδ
  norm_num at hδ
  -- the exact profile at the rounded energy
  set ρ := e' / r0.er with hρ
  have hρ0 : 0 < ρ := by positivity
  have ed1 : d1 = d * ρ := by
    rw [hd1def, hddef, hρ]
    unfold dopplerWidth
    field_simp
  have hfl := hA.fl r0.er
  rw [abs_of_pos hpos, ← he'] at hfl
  have hρ1 : |ρ - 1| ≤ u := by
    have e : ρ - 1 = (e' - r0.er) / r0.er := by rw [hρ]; field_simp
    rw [e, abs_div, abs_of_pos hpos, div_le_iff₀ hpos]
    exact hfl
  have hb : |(e' - r0.er) / d| ≤ q * u := by
    rw [abs_div, abs_of_pos hd, div_le_iff₀ hd, hdq]
    refine hfl.trans (le_of_eq ?_)
    field_simp
  set a1 := (E - r0.er) / d with ha1
  have haa : |a1| = a := by rw [ha1, hda, abs_div, abs_of_pos hd]
  have ht := exponent_shift (a := a1) (b := (e' - r0.er) / d) (ρ := ρ) hu hu2 (by linarith [(abs_le.1 hρ1).1]) (by linarith [(abs_le.1 hρ1).2]) hb
  have e1 : (a1 - (e' - r0.er) / d) / ρ = (E - e') / d1 := by
    rw [ha1, ed1]
    field_simp
    ring
  have ea : a1 ^ 2 = a ^ 2 := by rw [← haa, sq_abs]
  rw [e1, haa, ea] at ht
  set t1 := ((E - e') / d1) ^ 2 with ht1
  have enorm : ∀ (l y : ℝ), normPdf l (y / Real.sqrt 2) E = Real.exp (-((E - l) / y) ^ 2) / (y / Real.sqrt 2 * Real.sqrt (2 * Real.pi)) := by
    intro l y
    unfold normPdf
    rw [neg_div, et]
  have n1 : LogNear (1.01 * u + |t1 - a ^ 2|) (normPdf e' (d1 / Real.sqrt 2) E) (normPdf r0.er (d / Real.sqrt 2) E) := by
    obtain ⟨ξ, hξ, e⟩ := LogNear.of_rel hu hu1 re
    refine ⟨-ξ - (t1 - a ^ 2), ?_, ?_⟩
    · refine (abs_sub _ _).trans ?_
      rw [abs_neg]
      have : |ξ| ≤ 1.01 * u := by simpa using hξ
      linarith
    · have eρ : ρ = Real.exp ξ := by rw [hρ, e]; field_simp
      rw [enorm, enorm, ← ha1, ea, ← ht1, ed1, eρ, sub_eq_add_neg, Real.exp_add, Real.exp_neg ξ]
      have e2 : Real.exp (-t1) = Real.exp (-a ^ 2) * Real.exp (-(t1 - a ^ 2)) := by rw [← Real.exp_add]; congr 1; ring
      rw [e2]
      have := Real.pi_pos
      field_simp
  have n2 : LogNear |δ| (normPdf e' (d1 / Real.sqrt 2) E * Real.exp δ) (normPdf e' (d1 / Real.sqrt 2) E) := ⟨δ, le_rfl, rfl⟩
  have n3 := (LogNear.of_rel hu hu1 rp).trans (n2.trans n1)
  have n4 := (LogNear.of_rel hu hu1 rics).mul n3
  have n5 := LogNear.of_rel hu hu1 ((Rel.refl (n := 0) hu hu1' (ics * A.normPdf e' (A.fl (d' / A.sqrt 2)) E)).round hA.fl hu hu1')
  have n6 := n5.trans n4
  refine ⟨r0.ics * normPdf r0.er (d / Real.sqrt 2) E, A.fl (ics * A.normPdf e' (A.fl (d' / A.sqrt 2)) E), ?_, ?_, ?_⟩
  · simp only [Reso.call, normDist, scipyDist, locScale, bind, Except.bind, hs, if_true, Fl.smul]
  · simp only [RArith.gauss, eics, ed, bind, Except.bind, hs', if_true]
  · set β := 2 * a * (q * u) + (q * u) ^ 2 with hβ
    have hβ0 : 0 ≤ β := by positivity
    have h1 : t1 ≤ a ^ 2 + 1.001 * β + 2.01 * u * a ^ 2 := by linarith [(abs_le.1 ht).2]
    have h2 : u * t1 ≤ 1.001 * (a ^ 2 * u) + 1 / 3900 * β := by
      have h3 := mul_le_mul_of_nonneg_left h1 hu
      have h4 := mul_le_mul_of_nonneg_right hu2 hβ0
      have h5 := mul_le_mul_of_nonneg_right hu2 hau
      nlinarith
    have hδ2 : |δ| ≤ 30.34 * (a ^ 2 * u) + 0.008 * β := by linarith
    have n7 := n6.mono (ε := 1.01 * ((N + 44 + 33 * a ^ 2 + 2.1 * a * q) * u + 1.1 * (q * u) ^ 2)) (by
      push_cast
      rw [← hNd]
      rw [hβ] at hδ2
      linarith)
    refine (n7.abs_le (by linarith)).trans (mul_le_mul_of_nonneg_right ?_ (abs_nonneg _))
    have : 0 ≤ (N + 44 + 33 * a ^ 2 + 2.1 * a * q) * u + 1.1 * (q * u) ^ 2 := by positivity
    linarith

theorem exAbove_gauss {w : ℝ} {r0 : Reso} (h : mkResonance exConst exIsomer (exAbove w) none noRecoil = .ok r0) :
    ∃ r, mkGauss exConst exIsomer (exAbove w) 11 293 none = .ok r ∧ r.er = r0.er := by
  refine ⟨{ r0 with dist := normDist, params := [r0.er, dopplerWidth exConst 11 293 r0.er / Real.sqrt 2] }, ?_, rfl⟩
  have hu : exConst.u ≠ 0 := exConst.u_pos.ne'
  simp [mkGauss, h, getDopplerWidth, hu, bind, Except.bind]

/-- The hypotheses of `C203_gauss`: at room temperature, within three Doppler widths of the resonance, double precision gives eight digits, however narrow
the level is. -/
example {w : ℝ} (hw : 0 < w) : ∃ r, mkGauss exConst exIsomer (exAbove w) 11 293 none = .ok r ∧ ∀ E, |E - r.er| ≤ 3 * dopplerWidth exConst 11 293 r.er →
    ∃ σ σ', r.call E = .ok (.fin σ) ∧ exRArith.gauss exConst exIsomer (exAbove w) 11 293 none E = .ok (.fin σ') ∧ |σ' - σ| ≤ 1e-8 * |σ| := by
  obtain ⟨r0, h0, her, -⟩ := exAbove_resonance hw
  obtain ⟨r, hr, hre⟩ := exAbove_gauss h0
  refine ⟨r, hr, fun E hE => ?_⟩
  have hpos : 0 < r.er := by rw [hre, her]; norm_num
  have hS : (1e-7 : ℝ) ≤ Real.sqrt (2 * exConst.kB * 1e-6 * 293 / (11 * exConst.u)) := by
    refine Real.le_sqrt_of_sq_le ?_
    norm_num [exConst]
  have hd : 1e-7 * r.er ≤ dopplerWidth exConst 11 293 r.er := by
    unfold dopplerWidth
    nlinarith
  have hd0 : 0 < dopplerWidth exConst 11 293 r.er := lt_of_lt_of_le (by positivity) hd
  set d := dopplerWidth exConst 11 293 r.er with hdd
  set a := |E - r.er| / d with ha
  set q := r.er / d with hq
  have ha0 : 0 ≤ a := by positivity
  have ha3 : a ≤ 3 := by rw [ha, div_le_iff₀ hd0]; exact hE
  have hq0 : 0 ≤ q := by positivity
  have hq3 : q ≤ 1e7 := by
    rw [hq, div_le_iff₀ hd0]
    linarith
  have h1 : a ^ 2 ≤ 9 := by nlinarith
  have h2 : a * q ≤ 3e7 := by nlinarith
  have h3 : (q * (1 / 2 ^ 53)) ^ 2 ≤ 2e-18 := by
    have : q * (1 / 2 ^ 53) ≤ 1.2e-9 := by norm_num; linarith
    have h0 : 0 ≤ q * (1 / 2 ^ 53) := by positivity
    nlinarith
  have hb : (((exAbove w).channels : ℝ) + 44 + 33 * a ^ 2 + 2.1 * a * q) * (1 / 2 ^ 53) + 1.1 * (q * (1 / 2 ^ 53)) ^ 2 ≤ 9e-9 := by
    rw [exAbove_channels]
    have : (1 : ℝ) + 44 + 33 * a ^ 2 + 2.1 * a * q ≤ 7e7 := by linarith
    have h4 : ((1 : ℝ) + 44 + 33 * a ^ 2 + 2.1 * a * q) * (1 / 2 ^ 53) ≤ 7e7 * (1 / 2 ^ 53) := mul_le_mul_of_nonneg_right this (by norm_num)
    have h5 : (7e7 : ℝ) * (1 / 2 ^ 53) ≤ 8e-9 := by norm_num
    linarith
  obtain ⟨σ, σ', g1, g2, g3⟩ := C203_gauss exRArith_accurate (by norm_num) hr (exAbove_physical hw.le) (by norm_num) (by norm_num)
    (by norm_num [exAbove, exIsomer, state]) E a q ha hq (hb.trans (by norm_num))
  refine ⟨σ, σ', g1, g2, g3.trans (mul_le_mul_of_nonneg_right ?_ (abs_nonneg _))⟩
  linarith

end Ries
