import Verif.Lemmas.ExponentRangePV
import Verif.Props.ExponentRange
import Verif.Props.RoundedPV

/-! # Property C155: overflow and underflow, pseudo-Voigt profiles -/

namespace Ries

open KN

variable {u : ℝ} {A : PArith}

/-- the parameter of the normal distribution in terms of `Γ` -/
theorem PV.normScale_exponent (er w d E : ℝ) :
    ((E - er) / (mkPV er w d).normScale) ^ 2 / 2 = 4 * Real.log 2 * ((E - er) / (mkPV er w d).bigGamma) ^ 2 := by
  show ((E - er) / ((mkPV er w d).bigGamma / (2 * Real.sqrt (Real.log 2)) / Real.sqrt 2)) ^ 2 / 2 = _
  have hq := sqrt_log_two_pos
  have q2 : Real.sqrt (Real.log 2) ^ 2 = Real.log 2 := Real.sq_sqrt (Real.log_pos one_lt_two).le
  have r2 : Real.sqrt 2 ^ 2 = 2 := Real.sq_sqrt (by norm_num)
  rw [div_pow, div_pow, div_pow, div_pow, mul_pow, q2, r2]
  field_simp
  ring

theorem Rel.mag {a b : ℝ} {n : ℕ} {i j : ℤ} (h : Rel u n a b) (hu : 0 ≤ u) (hn : (n : ℝ) * u ≤ 1 / 200) (hb : Mag i j b) :
    Mag (i - 1) (j + 1) a := by
  have h1 := h.abs_le hu (by linarith)
  refine hb.close (h1.trans (mul_le_mul_of_nonneg_right ?_ (abs_nonneg _)))
  linarith

/-- C155, pseudo-Voigt: with an arithmetic that is accurate only as long as a result neither overflows nor underflows, the error bound
of C125 still holds if the width and the Doppler width are zero or between `2⁻⁸⁰` and `2⁸⁰` MeV, the integrated cross section is zero or
between `2⁻³⁰⁰` and `2³⁰⁰` MeV fm², and the normal distribution at the energy is at least `e⁻²⁰⁰` of its maximum. -/
theorem C155_pseudo_voigt (hA : A.AccurateInRange u) (hu : 0 ≤ u) (hu1 : u ≤ 1 / 2 ^ 21) {k : PhysConst} (hk : k.InRange)
    {init inter : Level} {amu T w Γ : ℝ} {final : Option Level} {r : Reso} {m : ℕ} (hr : mkPseudoVoigt k init inter amu T final = .ok r)
    (hl : inter.InRange) (hJ : |inter.twoJ + 1| ≤ 2 ^ 10) (hJ0 : |init.twoJ + 1| ≤ 2 ^ 10) (ha : 0 < amu) (ha' : Mag (-20) 20 amu)
    (hT : 0 < T) (hT' : Mag (-60) 60 T) (hpos : init.exc < inter.exc) (hE : Mag (-60) 60 (inter.exc - init.exc))
    (hex : A.fl (inter.exc - init.exc) = inter.exc - init.exc) (hw : inter.width = .ok w) (hw' : Mag (-80) 80 w)
    (hd' : Mag (-80) 80 (dopplerWidth k amu T r.er)) (hi : Mag (-300) 300 r.ics)
    (hΓ : Γ = (mkPV r.er w (dopplerWidth k amu T r.er)).bigGamma) (hm : |Real.log Γ| ≤ m) {E : ℝ}
    (hx : Mag (-100) 60 (E - (inter.exc - init.exc))) (ht : 4 * Real.log 2 * ((E - r.er) / Γ) ^ 2 ≤ 200)
    (hN : (50 * inter.channels + 26 * m + 670 + 2.2 * (inter.channels + m + 31) * (4 * Real.log 2 * ((E - r.er) / Γ) ^ 2) : ℝ) * u ≤ 1 / 200) :
    ∃ σ σ', r.call E = .ok (.fin σ) ∧ A.pseudoVoigt k init inter amu T final E = .ok (.fin σ') ∧
      |σ' - σ| ≤ (50 * inter.channels + 26 * m + 670 + 2.2 * (inter.channels + m + 31) * (4 * Real.log 2 * ((E - r.er) / Γ) ^ 2)) * u * |σ| := by
  have hu1' : u ≤ 1 / 100 := hu1.trans (by norm_num)
  have hu0 : u < 1 := by linarith
  have hR := hA.toAccurateInRange
  have hB := RArith.complete_accurate hR hu
  have hex' : A.toRArith.complete.fl (inter.exc - init.exc) = inter.exc - init.exc := by
    rw [RArith.complete_fl hE (by norm_num) (by norm_num), hex]
  suffices h : A.pseudoVoigt k init inter amu T final E = A.complete.pseudoVoigt k init inter amu T final E by
    rw [h]
    exact C125_near (PArith.complete_accurate hA hu) hu hr hl.physical ha hT hpos hex' hw hΓ hm E hN
  have hNn : (0 : ℝ) ≤ inter.channels := Nat.cast_nonneg _
  have hmn : (0 : ℝ) ≤ m := Nat.cast_nonneg _
  have hlog := Real.log_pos one_lt_two
  have hN1 : (50 * inter.channels + 26 * m + 670 : ℝ) * u ≤ 1 / 200 := by
    have : 0 ≤ 2.2 * (inter.channels + m + 31) * (4 * Real.log 2 * ((E - r.er) / Γ) ^ 2) * u := by positivity
    linarith
  have hNu : 0 ≤ inter.channels * u := by positivity
  have hmu : 0 ≤ m * u := by positivity
  obtain ⟨r0, w0, h0, hw0, rfl⟩ := mkPseudoVoigt_split hr ha.ne'
  rw [hw] at hw0; cases hw0
  simp only at hΓ ht hd' hi
  subst hΓ
  have her : r0.er = inter.exc - init.exc := (mkResonance_inv h0).1
  have her0 : 0 < r0.er := by rw [her]; linarith
  have hd : 0 < dopplerWidth k amu T r0.er := by
    unfold dopplerWidth
    have := k.u_pos
    have := k.kB_pos
    positivity
  obtain ⟨e1, -⟩ := RArith.mkResonance_same hR hu hu1 hk hl final hJ hJ0 hE
  obtain ⟨ics, eics, rics⟩ := RArith.resonance_rel hB hu hu1' hl.physical hex' h0
  obtain ⟨⟨e2, -⟩, -⟩ := RArith.width_same hR hu hu1 hl
  obtain ⟨wr, ewr, rwr, hwn⟩ := RArith.width_rel hB.fl hu hu0 hl.physical hw
  have e3 := (RArith.doppler_same hR hu hu1 hk ha.le ha' hT.le hT' (by rw [her]; exact hE.mono (by norm_num) (by norm_num) : Mag (-61) 61 r0.er)).1
  obtain ⟨d', ed, rd⟩ := RArith.doppler_rel (A := A.toRArith.complete) hB hu hu0 k ha hT.le r0.er
  rw [← PV.normScale_exponent] at ht
  obtain ⟨p, hp, hp', mp⟩ := PArith.pvPdf_same hA hu hu1 hwn hd rwr rd hm hN1 (Rel.mag rwr hu (by linarith) hw') (Rel.mag rd hu (by push_cast; linarith) hd')
    (by rw [her]; exact hx) ht
  have mi := Rel.mag rics hu (by push_cast; linarith) hi
  have hv := ((Same.refl mi).mul (Same.refl mp)).fl hR hu1' (by norm_num) (by norm_num)
  have eB : A.complete.toRArith = A.toRArith.complete := rfl
  simp only [PArith.pseudoVoigt, eB, bind, Except.bind]
  rw [e1, eics]
  simp only
  rw [e2, ewr]
  simp only
  rw [e3, ed]
  simp only
  rw [hp, hp']
  simp only
  rw [hv.1]

/-- Double precision with gradual underflow, with powers. -/
noncomputable def exRangePV (c : ℝ) : PArith := { exRange c with ln2 := rn (Real.log 2), pow := fun x y => rnRange c (x ^ y) }

theorem exRangePV_accurate (c : ℝ) : (exRangePV c).AccurateInRange (1 / 2 ^ 53) where
  toAccurateInRange := exRange_accurate c
  ln2 := by
    have := rn_rounding (Real.log 2)
    rwa [abs_of_pos (Real.log_pos one_lt_two)] at this
  pow x y hx h := by
    have := rnRange_accurate c h
    rw [abs_of_pos (Real.rpow_pos_of_pos hx y)] at this
    exact this.trans (mul_le_mul_of_nonneg_right (by norm_num) (Real.rpow_pos_of_pos hx y).le)
  grid := (exRangeKN_accurate c).grid

theorem exDoppler_mag : Mag (-80) 80 (dopplerWidth exConst 11 293 2) := by
  have hd : dopplerWidth exConst 11 293 2 ≤ 0.01 := by
    unfold dopplerWidth
    have : Real.sqrt (2 * exConst.kB * 1e-6 * 293 / (11 * exConst.u)) ≤ 0.005 := by
      rw [Real.sqrt_le_left (by norm_num)]
      norm_num [exConst]
    linarith
  have hd0 : 1e-9 ≤ dopplerWidth exConst 11 293 2 := by
    unfold dopplerWidth
    have : 1e-9 ≤ Real.sqrt (2 * exConst.kB * 1e-6 * 293 / (11 * exConst.u)) := by
      apply Real.le_sqrt_of_sq_le
      norm_num [exConst]
    linarith
  refine Mag.of_bounds (le_trans ?_ hd0) (hd.trans ?_) <;> norm_num

/-- The excited state at 2 MeV of the other examples, at the resonance energy. -/
example (c : ℝ) : ∃ r σ σ', mkPseudoVoigt exConst exGround exExcited 11 293 none = .ok r ∧ r.call 2 = .ok (.fin σ) ∧
    (exRangePV c).pseudoVoigt exConst exGround exExcited 11 293 none 2 = .ok (.fin σ') ∧ |σ' - σ| ≤ 1e-13 * |σ| := by
  obtain ⟨r0, h0, he⟩ := exResonance
  have hr : mkPseudoVoigt exConst exGround exExcited 11 293 none =
      .ok { r0 with dist := (mkPV r0.er 4 (dopplerWidth exConst 11 293 r0.er)).toDist, params := [] } := by
    simp [mkPseudoVoigt, h0, exExcited_width, getDopplerWidth_ok, bind, Except.bind]
  have hc : (exExcited.channels : ℝ) = 2 := by norm_num [Level.channels, exExcited, state]
  have hi : Mag (-300) 300 r0.ics := by
    obtain ⟨-, -, hco, -, hst, hbr, ⟨pw, g0, hpw, hg, hics⟩, -, -⟩ := mkResonance_inv h0
    simp only [exExcited, state, Option.some.injEq] at hpw
    subst hpw
    simp [exGround, groundState, lookup] at hg
    simp [branchingRatio] at hbr
    rw [hics, ← hbr, ← hg, hst, hco, he]
    have p1 := Real.pi_gt_three
    have p2 := Real.pi_lt_four
    have q1 : (9 : ℝ) ≤ Real.pi ^ 2 := by nlinarith
    have q2 : Real.pi ^ 2 ≤ (16 : ℝ) := by nlinarith
    simp [exExcited, exGround, state, groundState, exConst]
    rw [mul_pow]
    generalize Real.pi ^ 2 = q at *
    have b1 : (2 : ℝ) ^ (-300 : ℤ) ≤ 1 := zpow_le_one_of_nonpos₀ (by norm_num) (by norm_num)
    have b2 : (2 : ℝ) ^ (40 : ℤ) ≤ 2 ^ (300 : ℤ) := zpow_le_zpow_right₀ (by norm_num) (by norm_num)
    refine Mag.of_bounds (b1.trans ?_) (le_trans ?_ b2) <;> norm_num <;> linarith
  obtain ⟨σ, σ', h1, h2, h3⟩ := C155_pseudo_voigt (m := 2) (E := 2) (exRangePV_accurate c) (by norm_num) (by norm_num) exConst_inRange hr
    exExcited_inRange (by simp [exExcited, state]) (by simp [exGround, groundState]) (by norm_num) (Mag.of_bounds (by norm_num) (by norm_num))
    (by norm_num) (Mag.of_bounds (by norm_num) (by norm_num)) (by have := exExcited_diff; linarith)
    (by rw [exExcited_diff]; exact Mag.of_bounds (by norm_num) (by norm_num)) (by rw [exExcited_diff]; exact exRange_two c)
    exExcited_width (Mag.of_bounds (by norm_num) (by norm_num)) (by simp only; rw [he]; exact exDoppler_mag) hi rfl
    (by simp only; rw [he]; exact exPV_log 2) (by rw [exExcited_diff, sub_self]; exact Mag.zero _ _)
    (by simp only; rw [he]; norm_num) (by rw [hc]; simp only; rw [he]; norm_num)
  refine ⟨_, σ, σ', hr, h1, h2, h3.trans (mul_le_mul_of_nonneg_right ?_ (abs_nonneg _))⟩
  rw [hc]
  simp only
  rw [he]
  norm_num

end Ries
