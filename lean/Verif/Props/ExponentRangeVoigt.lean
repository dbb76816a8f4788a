import Verif.Spec.ExponentRangeVoigt
import Verif.Props.ExponentRange
import Verif.Props.RoundedVoigtValue

/-! # Property C155 for Voigt cross sections -/

namespace Ries

open KN

variable {u v : ℝ} {A : RArith} {vp : ℝ → ℝ → ℝ → ℝ}

/-- the routine, replaced by the exact convolution for arguments out of range -/
noncomputable def completeVoigt (vp : ℝ → ℝ → ℝ → ℝ) (x s g : ℝ) : ℝ :=
  open Classical in
  if Mag (-200) 200 x ∧ Mag (-200) 200 s ∧ Mag (-200) 200 g then vp x s g else coldVoigt 0 g x s

theorem completeVoigt_accurate (hv0 : 0 ≤ v) (hv : VoigtAccurateInRange v vp) : VoigtAccurate v (completeVoigt vp) := by
  intro x s g hs hg
  unfold completeVoigt
  split_ifs with h
  · exact hv x s g h.1 h.2.1 h.2.2 hs hg
  · change |coldVoigt 0 g x s - coldVoigt 0 g x s| ≤ v * coldVoigt 0 g x s
    rw [sub_self, abs_zero]
    exact mul_nonneg hv0 (coldVoigt_pos _ _ _ hg).le

theorem Mag.abs_le {a b : ℤ} {x : ℝ} (h : Mag a b x) : |x| ≤ 2 ^ b := by
  rcases h with rfl | h
  · rw [abs_zero]; positivity
  · exact h.2

theorem coldVoigt_mag {x s g : ℝ} (hx : Mag (-101) 61 x) (hs : Mag (-139) 119 s) (hg : Mag (-103) 121 g) (hs0 : 0 ≤ s) (hg0 : 0 < g) :
    Mag (-350) 103 (coldVoigt 0 g x s) := by
  have hpi := Real.pi_pos
  have hp4 := Real.pi_le_four
  have hp1 : (1 : ℝ) ≤ Real.pi := by linarith [Real.pi_gt_three]
  have g1 : (2 : ℝ) ^ (-103 : ℤ) ≤ g := by
    rcases hg with h | h
    · exact absurd h hg0.ne'
    · rw [abs_of_pos hg0] at h; exact h.1
  have g2 : g ≤ 2 ^ (121 : ℤ) := by simpa [abs_of_pos hg0] using hg.abs_le
  have sq : ∀ {y : ℝ} {b : ℤ}, Mag (-139) b y → b ≤ 121 → y ^ 2 ≤ 2 ^ (242 : ℤ) := by
    intro y b h hb
    have h1 : |y| ≤ (2 : ℝ) ^ (121 : ℤ) := h.abs_le.trans (zpow_le_zpow_right₀ (by norm_num) hb)
    rw [← sq_abs]
    calc |y| ^ 2 ≤ ((2 : ℝ) ^ (121 : ℤ)) ^ 2 := pow_le_pow_left₀ (abs_nonneg _) h1 2
      _ = 2 ^ (242 : ℤ) := by norm_num
  have q1 := sq (hx.mono (by norm_num) (by norm_num) : Mag (-139) 121 x) le_rfl
  have q2 := sq (hs.mono (by norm_num) (by norm_num) : Mag (-139) 121 s) le_rfl
  have q3 := sq (hg.mono (by norm_num) (by norm_num) : Mag (-139) 121 g) le_rfl
  refine Mag.of_bounds ?_ ?_
  · refine le_trans ?_ (coldVoigt_jensen 0 x s hg0)
    have e : 1 / (Real.pi * g) / (1 + ((x - 0) / g) ^ 2 + (s / g) ^ 2) = g / (Real.pi * (g ^ 2 + x ^ 2 + s ^ 2)) := by
      rw [sub_zero]
      field_simp
    rw [e, le_div_iff₀ (by positivity)]
    have h3 : Real.pi * (g ^ 2 + x ^ 2 + s ^ 2) ≤ 4 * (4 * 2 ^ (242 : ℤ)) := by
      refine mul_le_mul hp4 ?_ (by positivity) (by norm_num)
      have : (0 : ℝ) < 2 ^ (242 : ℤ) := by positivity
      linarith
    calc (2 : ℝ) ^ (-350 : ℤ) * (Real.pi * (g ^ 2 + x ^ 2 + s ^ 2)) ≤ 2 ^ (-350 : ℤ) * (4 * (4 * 2 ^ (242 : ℤ))) :=
          mul_le_mul_of_nonneg_left h3 (by positivity)
      _ = 2 ^ (-350 : ℤ) * 2 ^ (246 : ℤ) := by
          rw [show (246 : ℤ) = 2 + (2 + 242) by norm_num, zpow_add₀ (two_ne_zero), zpow_add₀ (two_ne_zero)]
          norm_num
      _ = 2 ^ (-104 : ℤ) := by rw [← zpow_add₀ (two_ne_zero)]; norm_num
      _ ≤ 2 ^ (-103 : ℤ) := zpow_le_zpow_right₀ (by norm_num) (by norm_num)
      _ ≤ g := g1
  · have h := (coldVoigt_le 0 hg0 hs0 x).2
    rw [coldVoigt_zero] at h
    refine h.trans ?_
    have e : cauchyPdf 0 g 0 = 1 / (Real.pi * g) := by unfold cauchyPdf; simp
    rw [e, div_le_iff₀ (by positivity)]
    calc (1 : ℝ) = 2 ^ (103 : ℤ) * (1 * 2 ^ (-103 : ℤ)) := by norm_num
      _ ≤ 2 ^ (103 : ℤ) * (Real.pi * g) := by gcongr

/-- C155, Voigt: with an arithmetic that is accurate only as long as a result neither overflows nor underflows, the error bound of C202 still
holds, for the same ranges as for the Breit-Wigner and Gauss cross sections, all distances from the resonance up to `2⁶⁰` MeV and all temperatures
that are zero or between `2⁻⁶⁰` and `2⁶⁰` K. -/
theorem C155_voigt (hA : A.AccurateInRange u) (hu : 0 ≤ u) (hu1 : u ≤ 1 / 2 ^ 21) (hv0 : 0 ≤ v) (hv : VoigtAccurateInRange v vp) {k : PhysConst}
    (hk : k.InRange) {init inter : Level} {amu T w : ℝ} {final : Option Level} {r : Reso} (hr : mkVoigt k init inter amu T final = .ok r)
    (hl : inter.InRange) (hJ : |inter.twoJ + 1| ≤ 2 ^ 10) (hJ0 : |init.twoJ + 1| ≤ 2 ^ 10) (hw : inter.width = .ok w) (hpos : 0 < w)
    (ha : 0 < amu) (ha' : Mag (-20) 20 amu) (hT : 0 ≤ T) (hT' : Mag (-60) 60 T) (hlt : init.exc < inter.exc)
    (hE : Mag (-60) 60 (inter.exc - init.exc)) (hex : A.fl (inter.exc - init.exc) = inter.exc - init.exc) {E x y : ℝ}
    (hd : Mag (-100) 60 (E - (inter.exc - init.exc))) (hx : x = (E - r.er) / (w / 2))
    (hy : y = dopplerWidth k amu T r.er / Real.sqrt 2 / (w / 2))
    (hD : (2 * inter.channels + 35 + 88 * Real.log (Real.sqrt 2 * (1 + x ^ 2 + y ^ 2))) * u + v ≤ 1 / 110) :
    ∃ σ σ', r.call E = .ok (.fin σ) ∧ A.voigt vp k init inter amu T final E = .ok (.fin σ') ∧
      |σ' - σ| ≤ 1.03 * ((2 * inter.channels + 35 + 88 * Real.log (Real.sqrt 2 * (1 + x ^ 2 + y ^ 2))) * u + v) * |σ| := by
  have hu1' : u ≤ 1 / 100 := hu1.trans (by norm_num)
  have hu0 : u < 1 := by linarith
  have hB := RArith.complete_accurate hA hu
  have hv' := completeVoigt_accurate hv0 hv
  have hex' : A.complete.fl (inter.exc - init.exc) = inter.exc - init.exc := by
    rw [RArith.complete_fl hE (by norm_num) (by norm_num), hex]
  suffices h : A.voigt vp k init inter amu T final E = A.complete.voigt (completeVoigt vp) k init inter amu T final E by
    rw [h]
    exact C202_voigt_everywhere hB hu (hu1.trans (by norm_num)) hv' hr hl.physical hw hpos ha hT hlt hex' E x y hx hy hD
  have hv1 : v ≤ 1 / 2 := by
    have hX : (1 : ℝ) ≤ Real.sqrt 2 * (1 + x ^ 2 + y ^ 2) := by
      have hs2 : (1 : ℝ) ≤ Real.sqrt 2 := Real.one_le_sqrt.2 (by norm_num)
      nlinarith [sq_nonneg x, sq_nonneg y]
    have h1 := Real.log_nonneg hX
    have h2 : (0 : ℝ) ≤ inter.channels := Nat.cast_nonneg _
    have h3 : 0 ≤ (2 * inter.channels + 35 + 88 * Real.log (Real.sqrt 2 * (1 + x ^ 2 + y ^ 2))) * u := by positivity
    linarith
  obtain ⟨r0, d0, ps0, hr0, -, -⟩ := build_inv (s := .voigt amu T) hr
  have h0 : mkResonance k init inter final noRecoil = .ok r0 := hr0
  have her : r0.er = inter.exc - init.exc := (mkResonance_inv h0).1
  obtain ⟨e1, h1⟩ := RArith.mkResonance_same hA hu hu1 hk hl final hJ hJ0 hE
  obtain ⟨ics, eics, -⟩ := RArith.resonance_rel hB hu hu1' hl.physical hex' h0
  obtain ⟨wr, ewr, rwr, -⟩ := RArith.width_rel hB.fl hu hu0 hl.physical hw
  obtain ⟨hws, -⟩ := RArith.width_same hA hu hu1 hl
  have hmw := hws.2 wr ewr
  have hg := ((Same.num (x := 0.5) (-1) (-1) (by norm_num) (by norm_num)).mul (.refl hmw)).fl hA hu1' (by norm_num) (by norm_num)
  have rg := ((Rel.refl (n := 0) hu hu0 0.5).mul hu0 rwr).round hB.fl hu hu0
  have hg0 : 0 < A.complete.fl (0.5 * wr) := rg.pos hu0 (by linarith)
  obtain ⟨d', ed, rd⟩ := RArith.doppler_rel (A := A.complete) hB hu hu0 k ha hT r0.er
  have hds := RArith.doppler_same hA hu hu1 hk ha.le ha' hT hT' (by rw [her]; exact hE.mono (by norm_num) (by norm_num) : Mag (-61) 61 r0.er)
  have hmd := hds.2 d' ed
  have h2 := Same.rsqrt (a := 0) (b := 1) hA hu1' ((Same.num (x := 2) 1 1 (by norm_num) (by norm_num)).mono (by norm_num) (by norm_num))
    (by norm_num) (by norm_num) (by norm_num)
  have hs := ((Same.refl hmd).div h2).fl hA hu1' (by norm_num) (by norm_num)
  have r2 := RArith.sqrt_rel (A := A.complete) hB hu hu0 (by norm_num : (0 : ℝ) ≤ 2) (Rel.refl (n := 0) hu hu0 2)
  have rs := (rd.div hu0 r2).round hB.fl hu hu0
  have hs0 : 0 ≤ A.complete.fl (d' / A.complete.sqrt 2) := by
    obtain ⟨η, hη, -, e⟩ := rs
    rw [e]
    have hd0 : 0 ≤ dopplerWidth k amu T r0.er := by
      have : 0 < r0.er := by rw [her]; linarith
      have := k.u_pos
      have := k.kB_pos
      unfold dopplerWidth
      positivity
    exact mul_nonneg (div_nonneg hd0 (Real.sqrt_nonneg _)) ((pow_pos (by linarith) _).le.trans hη)
  have hxx := (Same.refl (by rw [her]; exact hd : Mag (-100) 60 (E - r0.er))).fl hA hu1' (by norm_num) (by norm_num)
  set x' := A.complete.fl (E - r0.er)
  set s' := A.complete.fl (d' / A.complete.sqrt 2)
  set g' := A.complete.fl (0.5 * wr)
  have mx : Mag (-101) 61 x' := hxx.2.mono (by norm_num) (by norm_num)
  have ms : Mag (-139) 119 s' := hs.2.mono (by norm_num) (by norm_num)
  have mg : Mag (-103) 121 g' := hg.2.mono (by norm_num) (by norm_num)
  have ev : completeVoigt vp x' s' g' = vp x' s' g' :=
    if_pos ⟨mx.mono (by norm_num) (by norm_num), ms.mono (by norm_num) (by norm_num), mg.mono (by norm_num) (by norm_num)⟩
  have mV := coldVoigt_mag mx ms mg hs0 hg0
  have mv : Mag (-351) 104 (completeVoigt vp x' s' g') := by
    have h := hv' x' s' g' hs0 hg0
    refine (mV.close ?_).mono (by norm_num) (by norm_num)
    have hp := coldVoigt_pos 0 x' s' hg0
    rw [abs_of_pos hp]
    exact h.trans (mul_le_mul_of_nonneg_right hv1 hp.le)
  have hf := ((Same.refl (h1 _ _ eics)).mul (.refl mv)).fl hA hu1' (by norm_num) (by norm_num)
  simp only [RArith.voigt, bind, Except.bind]
  rw [e1, eics]
  simp only
  rw [hws.1, ewr]
  simp only
  rw [hds.1, ed]
  simp only
  rw [hs.1, hg.1, hxx.1, ← ev, hf.1]

/-- The excited state at 2 MeV of the other examples, at 3 MeV and room temperature. -/
example (c : ℝ) (hv : VoigtAccurateInRange 1e-13 vp) : ∃ r σ σ', mkVoigt exConst exGround exExcited 11 293 none = .ok r ∧ r.call 3 = .ok (.fin σ) ∧
    (exRange c).voigt vp exConst exGround exExcited 11 293 none 3 = .ok (.fin σ') ∧ |σ' - σ| ≤ 2e-13 * |σ| := by
  obtain ⟨r, hr, he⟩ := exVoigt 293
  have hc : (exExcited.channels : ℝ) = 2 := by norm_num [Level.channels, exExcited, state]
  have hs2 : Real.sqrt 2 ^ 2 = 2 := Real.sq_sqrt (by norm_num)
  have hs3 : Real.sqrt 2 ≤ 1.5 := Real.sqrt_le_iff.2 (by norm_num)
  set x := (3 - r.er) / (4 / 2) with hx
  set y := dopplerWidth exConst 11 293 r.er / Real.sqrt 2 / (4 / 2) with hy
  have hx2 : x ^ 2 ≤ 1 := by rw [hx, he]; norm_num
  have hy2 : y ^ 2 ≤ 1 := by
    rw [hy, he, div_pow, div_pow, hs2]
    unfold dopplerWidth
    rw [mul_pow, Real.sq_sqrt (by norm_num [exConst])]
    norm_num [exConst]
  have hlog : Real.log (Real.sqrt 2 * (1 + x ^ 2 + y ^ 2)) ≤ 4 := by
    have h0 : 0 < Real.sqrt 2 * (1 + x ^ 2 + y ^ 2) := by positivity
    have h1 : Real.sqrt 2 * (1 + x ^ 2 + y ^ 2) ≤ 5 := by nlinarith [sq_nonneg x, sq_nonneg y, Real.sqrt_nonneg 2]
    have := Real.log_le_sub_one_of_pos h0
    linarith
  have hb : (2 * (exExcited.channels : ℝ) + 35 + 88 * Real.log (Real.sqrt 2 * (1 + x ^ 2 + y ^ 2))) * (1 / 2 ^ 53) + 1e-13 ≤ 1.9e-13 := by
    rw [hc]
    norm_num
    linarith
  obtain ⟨σ, σ', h1, h2, h3⟩ := C155_voigt (E := 3) (exRange_accurate c) (by norm_num) (by norm_num) (by norm_num) hv exConst_inRange hr
    exExcited_inRange (by simp [exExcited, state]) (by simp [exGround, groundState]) exExcited_width (by norm_num) (by norm_num)
    (Mag.of_bounds (by norm_num) (by norm_num)) (by norm_num) (Mag.of_bounds (by norm_num) (by norm_num)) (by have := exExcited_diff; linarith)
    (by rw [exExcited_diff]; exact Mag.of_bounds (by norm_num) (by norm_num)) (by rw [exExcited_diff]; exact exRange_two c)
    (by rw [exExcited_diff]; exact Mag.of_bounds (by norm_num) (by norm_num)) hx hy (hb.trans (by norm_num))
  refine ⟨r, σ, σ', hr, h1, h2, h3.trans (mul_le_mul_of_nonneg_right ?_ (abs_nonneg _))⟩
  linarith

end Ries
