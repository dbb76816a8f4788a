import Verif.Lemmas.RoundedReso
import Verif.Lemmas.RnMono
import Verif.Spec.Examples

/-! # Properties C94, C95: rounding errors of Breit-Wigner and Gauss cross sections -/

namespace Ries

open KN

variable {u : ℝ} {A : RArith}

/-- C94: evaluated with rounded operations, from the level energies and partial widths to the value at an energy, the
Breit-Wigner cross section has a small *relative* error at every energy, however far in the tails: at most `4 N + 34` roundings
for a level with `N` decay channels (partial widths nonnegative, total width positive, energy difference exact, which it is
for excitations from the ground state). -/
theorem C94_breit_wigner (hA : A.Accurate u) (hu : 0 ≤ u) {k : PhysConst} {init inter : Level} {final : Option Level} {r : Reso} {w : ℝ}
    (hr : mkBreitWigner k init inter final = .ok r) (hl : inter.Physical) (hw : inter.width = .ok w) (hpos : 0 < w)
    (hex : A.fl (inter.exc - init.exc) = inter.exc - init.exc) (hN : (4 * inter.channels + 34 : ℝ) * u ≤ 1 / 200) (E : ℝ) :
    ∃ σ σ', r.call E = .ok (.fin σ) ∧ A.breitWigner k init inter final E = .ok (.fin σ') ∧
      |σ' - σ| ≤ 1.01 * (4 * inter.channels + 34) * u * |σ| := by
  have hu1 : u ≤ 1 / 100 := by
    have : (0 : ℝ) ≤ inter.channels := Nat.cast_nonneg _
    nlinarith
  have hu1' : u < 1 := by linarith
  obtain ⟨r0, w', h0, hw', rfl⟩ := mkBreitWigner_inv hr
  rw [hw] at hw'; cases hw'
  obtain ⟨ics, eics, rics⟩ := RArith.resonance_rel hA hu hu1 hl hex h0
  obtain ⟨wr, ewr, rwr, -⟩ := RArith.width_rel hA.fl hu hu1' hl hw
  have rs := ((Rel.refl (n := 0) hu hu1' 0.5).mul hu1' rwr).round hA.fl hu hu1'
  have hs : (0 : ℝ) < 0.5 * w := by linarith
  have hs' : 0 < A.fl (0.5 * wr) := rs.pos hu1' hs
  have rp := RArith.cauchy_rel (l := r0.er) hA hu hu1' hs rs E
  have rv := (rics.mul hu1' rp).round hA.fl hu hu1'
  refine ⟨r0.ics * cauchyPdf r0.er (0.5 * w) E, A.fl (ics * A.cauchyPdf r0.er (A.fl (0.5 * wr)) E), ?_, ?_, ?_⟩
  · simp only [Reso.call, cauchyDist, scipyDist, locScale, bind, Except.bind, hs, if_true, Fl.smul]
  · simp only [RArith.breitWigner, eics, ewr, bind, Except.bind, hs', if_true]
  · have := (rv.mono hu hu1' (m := 4 * inter.channels + 34) (by omega)).abs_le hu (by push_cast; exact hN)
    push_cast at this
    exact this

/-- C95: the same for the Gauss cross section; here the relative error grows with the square of the distance from the
resonance energy in units of the Doppler width `Δ` (`t = ((E - E_r) / Δ)²`), by 31 roundings per unit. -/
theorem C95_gauss (hA : A.Accurate u) (hu : 0 ≤ u) {k : PhysConst} {init inter : Level} {amu T : ℝ} {final : Option Level} {r : Reso}
    (hr : mkGauss k init inter amu T final = .ok r) (hl : inter.Physical) (ha : 0 < amu) (hT : 0 < T) (hE : init.exc < inter.exc)
    (hex : A.fl (inter.exc - init.exc) = inter.exc - init.exc) (E : ℝ)
    (hN : (inter.channels + 41 + 31 * ((E - r.er) / dopplerWidth k amu T r.er) ^ 2 : ℝ) * u ≤ 1 / 200) :
    ∃ σ σ', r.call E = .ok (.fin σ) ∧ A.gauss k init inter amu T final E = .ok (.fin σ') ∧
      |σ' - σ| ≤ 1.03 * (inter.channels + 41 + 31 * ((E - r.er) / dopplerWidth k amu T r.er) ^ 2) * u * |σ| := by
  have hNN : (0 : ℝ) ≤ inter.channels := Nat.cast_nonneg _
  obtain ⟨r0, h0, -, rfl⟩ := mkGauss_inv hr
  have her : r0.er = inter.exc - init.exc := (mkResonance_inv h0).1
  have hpos : 0 < r0.er := by rw [her]; linarith
  simp only at hN ⊢
  have hd : 0 < dopplerWidth k amu T r0.er := by
    unfold dopplerWidth
    have := k.u_pos
    have := k.kB_pos
    positivity
  set d := dopplerWidth k amu T r0.er with hddef
  set t := ((E - r0.er) / d) ^ 2 with ht
  have ht0 : 0 ≤ t := sq_nonneg _
  have hu1 : u ≤ 1 / 100 := by nlinarith
  have hu1' : u < 1 := by linarith
  have hu41 : (inter.channels + 41 : ℝ) * u ≤ 1 / 200 := by nlinarith [mul_nonneg ht0 hu]
  obtain ⟨ics, eics, rics⟩ := RArith.resonance_rel hA hu hu1 hl hex h0
  obtain ⟨d', ed, rd⟩ := RArith.doppler_rel (A := A) hA hu hu1' k ha hT.le r0.er
  rw [← hddef] at rd
  have r2 := RArith.sqrt_rel (A := A) hA hu hu1' (by norm_num : (0 : ℝ) ≤ 2) (Rel.refl (n := 0) hu hu1' 2)
  have rs := (rd.div hu1' r2).round hA.fl hu hu1'
  have hs : 0 < d / Real.sqrt 2 := by positivity
  have hs' : 0 < A.fl (d' / A.sqrt 2) := rs.pos hu1' hs
  obtain ⟨δ, hδ, rp⟩ := RArith.norm_rel (l := r0.er) hA hu hu1 rs (by norm_num; nlinarith) E
  have et : ((E - r0.er) / (d / Real.sqrt 2)) ^ 2 / 2 = t := by
    rw [ht, div_pow, div_pow, div_pow, Real.sq_sqrt (by norm_num)]
    field_simp
  rw [et] at hδ
  norm_num at hδ
  have rv := (rics.mul hu1' rp).round hA.fl hu hu1'
  refine ⟨r0.ics * normPdf r0.er (d / Real.sqrt 2) E, A.fl (ics * A.normPdf r0.er (A.fl (d' / A.sqrt 2)) E), ?_, ?_, ?_⟩
  · simp only [Reso.call, normDist, scipyDist, locScale, bind, Except.bind, hs, if_true, Fl.smul]
  · simp only [RArith.gauss, eics, ed, bind, Except.bind, hs', if_true]
  · set σ := r0.ics * normPdf r0.er (d / Real.sqrt 2) E with hσ
    set σ' := A.fl (ics * A.normPdf r0.er (A.fl (d' / A.sqrt 2)) E)
    rw [← mul_assoc, ← hσ] at rv
    have h1 := (rv.mono hu hu1' (m := inter.channels + 41) (by omega)).abs_le hu (by push_cast; exact hu41)
    push_cast at h1
    have hδ1 : |δ| ≤ 1 / 200 := by nlinarith [mul_nonneg ht0 hu]
    have h2 := Real.abs_exp_sub_one_sub_id_le (x := δ) (by linarith)
    have hsq : δ ^ 2 ≤ 1 / 200 * |δ| := by
      rw [← sq_abs]; nlinarith [abs_nonneg δ]
    have h3 : |Real.exp δ - 1| ≤ 1.005 * |δ| := by
      have : Real.exp δ - 1 = (Real.exp δ - 1 - δ) + δ := by ring
      rw [this]
      have := abs_add_le (Real.exp δ - 1 - δ) δ
      linarith
    have h4 : Real.exp δ ≤ 1.0051 := by
      have := (_root_.abs_le.1 h3).2
      linarith
    have h5 : |σ' - σ| ≤ |σ' - σ * Real.exp δ| + |σ| * |Real.exp δ - 1| := by
      rw [← abs_mul]
      have : σ' - σ = (σ' - σ * Real.exp δ) + σ * (Real.exp δ - 1) := by ring
      rw [this]
      exact abs_add_le _ _
    rw [abs_mul, abs_of_pos (Real.exp_pos δ)] at h1
    have h6 : 1.01 * (inter.channels + 41 : ℝ) * u * (|σ| * Real.exp δ) ≤ 1.0152 * (inter.channels + 41) * u * |σ| := by
      have : 0 ≤ (inter.channels + 41 : ℝ) * u * |σ| := by positivity
      nlinarith
    have h7 : |σ| * |Real.exp δ - 1| ≤ 31 * u * t * |σ| := by
      have : |Real.exp δ - 1| ≤ 31 * u * t := by nlinarith [mul_nonneg ht0 hu]
      nlinarith [abs_nonneg σ]
    have h8 : 0 ≤ (inter.channels + 41 : ℝ) * u * |σ| := by positivity
    have h9 : 0 ≤ 31 * u * t * |σ| := by positivity
    have e : 1.03 * (inter.channels + 41 + 31 * t) * u * |σ| =
        1.03 * ((inter.channels + 41) * u * |σ|) + 1.03 * (31 * u * t * |σ|) := by ring
    rw [e]
    linarith

/-- Double precision with rounding to nearest. -/
noncomputable def exRArith : RArith := ⟨rn, fun x => rn (x ^ 2), fun x => rn (Real.exp x), fun x => rn (Real.sqrt x)⟩

theorem exRArith_accurate : exRArith.Accurate (1 / 2 ^ 53) where
  fl := rn_rounding
  sq x := (rn_rounding _).trans (mul_le_mul_of_nonneg_right (by norm_num) (abs_nonneg _))
  exp x := (rn_rounding _).trans (mul_le_mul_of_nonneg_right (by norm_num) (abs_nonneg _))
  sqrt x _ := rn_rounding _

theorem exExcited_physical : exExcited.Physical := by
  intro pw h
  simp only [exExcited, state, Option.some.injEq] at h
  subst h
  exact ⟨by decide, by simp⟩

theorem exExcited_exact : exRArith.fl (exExcited.exc - exGround.exc) = exExcited.exc - exGround.exc := by
  have : exExcited.exc - exGround.exc = ((2 : ℤ) : ℝ) := by simp [exExcited, exGround, state, groundState]
  rw [this]
  exact rn_exact (by norm_num)

/-- The excited state at 2 MeV with two channels: a relative error below `5e-15` at every energy. -/
example (E : ℝ) : ∃ r σ σ', mkBreitWigner exConst exGround exExcited none = .ok r ∧ r.call E = .ok (.fin σ) ∧
    exRArith.breitWigner exConst exGround exExcited none E = .ok (.fin σ') ∧ |σ' - σ| ≤ 5e-15 * |σ| := by
  obtain ⟨r, h, -⟩ := exBreitWigner
  have hc : (exExcited.channels : ℝ) = 2 := by norm_num [Level.channels, exExcited, state]
  obtain ⟨σ, σ', h1, h2, h3⟩ := C94_breit_wigner exRArith_accurate (by norm_num) h exExcited_physical exExcited_width (by norm_num) exExcited_exact
    (by rw [hc]; norm_num) E
  refine ⟨r, σ, σ', h, h1, h2, h3.trans (mul_le_mul_of_nonneg_right ?_ (abs_nonneg _))⟩
  rw [hc]; norm_num

/-- The hypotheses of C95 at the resonance energy. -/
example : ∃ r σ σ', mkGauss exConst exGround exExcited 11 293 none = .ok r ∧ r.call 2 = .ok (.fin σ) ∧
    exRArith.gauss exConst exGround exExcited 11 293 none 2 = .ok (.fin σ') ∧ |σ' - σ| ≤ 5e-15 * |σ| := by
  obtain ⟨r, h, he⟩ := exGauss
  have hc : (exExcited.channels : ℝ) = 2 := by norm_num [Level.channels, exExcited, state]
  obtain ⟨σ, σ', h1, h2, h3⟩ := C95_gauss exRArith_accurate (by norm_num) h exExcited_physical (by norm_num) (by norm_num)
    (by simp [exExcited, exGround, state, groundState]) exExcited_exact 2 (by rw [hc, he]; norm_num)
  refine ⟨r, σ, σ', h, h1, h2, h3.trans (mul_le_mul_of_nonneg_right ?_ (abs_nonneg _))⟩
  rw [hc, he]; norm_num

end Ries
