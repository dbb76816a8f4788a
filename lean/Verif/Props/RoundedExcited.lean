import Verif.Lemmas.RoundedExcited
import Verif.Lemmas.RnEval

/-! # Property C203: rounding of the difference of the level energies

C94 and C202 assume that the difference of the level energies is exact, as it is for a nucleus in its ground state (excitation energy zero). Here it
is rounded, as for a nucleus in an excited state. -/

namespace Ries

open KN

variable {u v : ℝ} {A : RArith} {vp : ℝ → ℝ → ℝ → ℝ}

/-- C203: for any two levels, the relative error of the computed Breit-Wigner cross section is about `4 N + 36` roundings, and two more for each
natural width `w` which fits into the resonance energy. -/
theorem C203_breit_wigner (hA : A.Accurate u) (hu : 0 ≤ u) {k : PhysConst} {init inter : Level} {final : Option Level} {r : Reso} {w : ℝ}
    (hr : mkBreitWigner k init inter final = .ok r) (hl : inter.Physical) (hw : inter.width = .ok w) (hpos : 0 < w)
    (hN : (4 * inter.channels + 36 + 2 * (|inter.exc - init.exc| / w)) * u ≤ 1 / 110) (E : ℝ) :
    ∃ σ σ', r.call E = .ok (.fin σ) ∧ A.breitWigner k init inter final E = .ok (.fin σ') ∧
      |σ' - σ| ≤ 1.03 * (4 * inter.channels + 36 + 2 * (|inter.exc - init.exc| / w)) * u * |σ| := by
  have hNN : (0 : ℝ) ≤ inter.channels := Nat.cast_nonneg _
  have hq : 0 ≤ |inter.exc - init.exc| / w := by positivity
  set N : ℝ := (inter.channels : ℝ) with hNd
  set q := |inter.exc - init.exc| / w with hqd
  have hNu : 0 ≤ N * u := mul_nonneg hNN hu
  have hqu : 0 ≤ q * u := mul_nonneg hq hu
  have hu1 : u ≤ 1 / 110 := by nlinarith
  have hu1' : u < 1 := by linarith
  obtain ⟨r0, w', h0, hw', rfl⟩ := mkBreitWigner_inv hr
  rw [hw] at hw'; cases hw'
  have her : r0.er = inter.exc - init.exc := (mkResonance_inv h0).1
  obtain ⟨σ', e', n1⟩ := RArith.breitWigner_shifted hA hu hu1 h0 hl hw hpos E
  have hs : (0 : ℝ) < 0.5 * w := by linarith
  have hg : 0 < w / 2 := by positivity
  have ew : (0.5 : ℝ) * w = w / 2 := by ring
  have n2 := (LogNear.refl le_rfl r0.ics).mul (cauchyPdf_near_shift r0.er (A.fl r0.er) E hg)
  refine ⟨r0.ics * cauchyPdf r0.er (0.5 * w) E, σ', ?_, e', ?_⟩
  · simp only [Reso.call, cauchyDist, scipyDist, locScale, bind, Except.bind, hs, if_true, Fl.smul]
  have hsh : |A.fl r0.er - r0.er| / (w / 2) ≤ 2 * (q * u) := by
    have h := hA.fl r0.er
    rw [her] at h ⊢
    rw [div_le_iff₀ hg, hqd]
    refine h.trans (le_of_eq ?_)
    field_simp
  have n3 := (n1.trans n2).mono (ε := 1.01 * ((4 * N + 36 + 2 * q) * u)) (by rw [← hNd]; ring_nf at hsh ⊢; linarith)
  rw [ew]
  refine (n3.abs_le (by linarith)).trans (mul_le_mul_of_nonneg_right ?_ (abs_nonneg _))
  have : 0 ≤ (4 * N + 36 + 2 * q) * u := by positivity
  linarith

/-- C203: the same for the Voigt cross section, at every temperature; compare C202. -/
theorem C203_voigt (hA : A.Accurate u) (hu : 0 ≤ u) (hv : VoigtAccurate v vp) {k : PhysConst} {init inter : Level} {amu T : ℝ}
    {final : Option Level} {r b : Reso} {w : ℝ} (hr : mkVoigt k init inter amu T final = .ok r) (hb : mkBreitWigner k init inter final = .ok b)
    (hl : inter.Physical) (hw : inter.width = .ok w) (hpos : 0 < w) (ha : 0 < amu) (hT : 0 ≤ T) (hE : init.exc < inter.exc)
    (hu1 : u ≤ 1 / 1000) (E : ℝ) :
    ∃ P σ σ', b.call b.er = .ok (.fin P) ∧ r.call E = .ok (.fin σ) ∧ A.voigt vp k init inter amu T final E = .ok (.fin σ') ∧
      ((2 * inter.channels + 39 + 97 * Real.log (Real.sqrt 2 * P / σ) + 2.1 * ((inter.exc - init.exc) / w)) * u + v ≤ 1 / 110 →
        |σ' - σ| ≤ 1.03 * ((2 * inter.channels + 39 + 97 * Real.log (Real.sqrt 2 * P / σ) + 2.1 * ((inter.exc - init.exc) / w)) * u + v) * |σ|) := by
  have hpi := Real.pi_pos
  have hNN : (0 : ℝ) ≤ inter.channels := Nat.cast_nonneg _
  have hσ := voigt_sigma hr ha hT hE hw hpos E
  obtain ⟨r0, d0, ps0, hr0, -, er0⟩ := build_inv (s := .voigt amu T) hr
  have h0 : mkResonance k init inter final noRecoil = .ok r0 := hr0
  obtain ⟨b0, w', hb0, hw', rfl⟩ := mkBreitWigner_inv hb
  rw [hw] at hw'; cases hw'
  rw [h0] at hb0; cases hb0
  have eer : r.er = r0.er := by rw [er0]
  have eic : r.ics = r0.ics := by rw [er0]
  rw [eer, eic] at hσ
  have her : r0.er = inter.exc - init.exc := (mkResonance_inv h0).1
  have her0 : 0 < r0.er := by rw [her]; linarith
  set g := w / 2 with hg
  have hg0 : 0 < g := by positivity
  have hw2 : 0.5 * w = g := by rw [hg]; ring
  have hd0 : ∀ {e : ℝ}, 0 < e → 0 ≤ dopplerWidth k amu T e := by
    intro e he
    have := k.u_pos
    have := k.kB_pos
    unfold dopplerWidth
    positivity
  set s := dopplerWidth k amu T r0.er / Real.sqrt 2 with hs
  have hs0 : 0 ≤ s := div_nonneg (hd0 her0) (Real.sqrt_nonneg _)
  set V := coldVoigt r0.er g E s with hV
  have hV0 : 0 < V := coldVoigt_pos _ _ _ hg0
  have hv0 : 0 ≤ v := by
    have h := (abs_nonneg _).trans (hv 0 0 1 le_rfl one_pos)
    have hp : 0 < coldVoigt 0 1 0 0 := coldVoigt_pos _ _ _ one_pos
    exact nonneg_of_mul_nonneg_left h hp
  have hu1' : u < 1 := by linarith
  have hu1'' : u ≤ 1 / 110 := by linarith
  obtain ⟨ics, eics, rics, re⟩ := RArith.resonance_rel_shifted hA hu (by linarith) hl h0
  set e' := A.fl r0.er with he'
  have he'0 : 0 < e' := re.pos hu1' her0
  obtain ⟨wr, ewr, rwr, -⟩ := RArith.width_rel hA.fl hu hu1' hl hw
  obtain ⟨d', ed, rd⟩ := RArith.doppler_rel (A := A) hA hu hu1' k ha hT e'
  have r2 := RArith.sqrt_rel (A := A) hA hu hu1' (by norm_num : (0 : ℝ) ≤ 2) (Rel.refl (n := 0) hu hu1' 2)
  have rs := (rd.div hu1' r2).round hA.fl hu hu1'
  have rg := ((Rel.refl (n := 0) hu hu1' 0.5).mul hu1' rwr).round hA.fl hu hu1'
  rw [hw2] at rg
  set s1 := dopplerWidth k amu T e' / Real.sqrt 2 with hs1
  have hs10 : 0 ≤ s1 := div_nonneg (hd0 he'0) (Real.sqrt_nonneg _)
  set s' := A.fl (d' / A.sqrt 2) with hs'
  set g' := A.fl (0.5 * wr) with hg'
  set L := Real.log (Real.sqrt 2 / (Real.pi * g * V)) with hL
  have hL0 : 0 ≤ L := coldVoigt_top r0.er E s hg0 hs0
  have hpeak : cauchyPdf r0.er g r0.er = 1 / (Real.pi * g) := by unfold cauchyPdf; simp
  refine ⟨r0.ics * cauchyPdf r0.er g r0.er, r0.ics * V, A.fl (ics * vp (A.fl (E - e')) s' g'), ?_, hσ, ?_, ?_⟩
  · simp only [Reso.call, cauchyDist, scipyDist, locScale, bind, Except.bind, hg0, if_true, Fl.smul, hw2]
  · simp only [RArith.voigt, eics, ewr, ed, bind, Except.bind]
    rfl
  rcases eq_or_ne r0.ics 0 with hi | hi
  · intro _
    have : ics = 0 := (rics.zero_iff hu1').2 hi
    have hf := hA.fl 0
    simp only [sub_zero, abs_zero, mul_zero] at hf
    have hf0 : A.fl 0 = 0 := abs_nonpos_iff.1 hf
    simp [this, hi, hf0]
  have eL : Real.log (Real.sqrt 2 * (r0.ics * cauchyPdf r0.er g r0.er) / (r0.ics * V)) = L := by
    rw [hL, hpeak]
    congr 1
    field_simp
  rw [eL]
  intro hD
  set N : ℝ := (inter.channels : ℝ) with hN
  set q := (inter.exc - init.exc) / w with hq
  have hq0 : 0 ≤ q := div_nonneg (by linarith) hpos.le
  have hLu : 0 ≤ L * u := mul_nonneg hL0 hu
  have hNu : 0 ≤ N * u := mul_nonneg hNN hu
  have hqu : 0 ≤ q * u := mul_nonneg hq0 hu
  have hv1 : v ≤ 1 / 110 := by nlinarith
  have hu2 : u ≤ 1 / 4000 := by nlinarith
  -- the exact profile at the rounded energy
  have eV : V = coldVoigt 0 g (E - r0.er) s := coldVoigt_shift _ _ _ _
  have m1 : LogNear (1.01 * u * (1 + 8 * L)) (coldVoigt 0 g (E - r0.er) s1) V := by
    have es : s1 = s * (e' / r0.er) := by
      rw [hs1, hs]
      unfold dopplerWidth
      field_simp
    rcases hs0.eq_or_lt with hs00 | hs00
    · have : s1 = s := by rw [es, ← hs00, zero_mul]
      rw [this, ← eV]
      exact LogNear.refl (by positivity) _
    · have h1 : LogNear (1.01 * u) s1 s := by
        obtain ⟨ξ, hξ, e⟩ := LogNear.of_rel hu hu1'' re
        refine ⟨ξ, by simpa using hξ, ?_⟩
        rw [es, e]
        field_simp
      have := coldVoigt_near_sigma 0 (E - r0.er) hg0 hs00 (by linarith) h1
      rw [← eV, ← hL] at this
      exact this
  have m2 : LogNear (2 * (q * u)) (coldVoigt 0 g (E - e') s1) (coldVoigt 0 g (E - r0.er) s1) := by
    refine (coldVoigt_near_shift (E - r0.er) (E - e') s1 hg0).mono ?_
    have h := hA.fl r0.er
    have e1 : E - e' - (E - r0.er) = -(A.fl r0.er - r0.er) := by rw [he']; ring
    rw [e1, abs_neg, div_le_iff₀ hg0]
    refine h.trans (le_of_eq ?_)
    rw [abs_of_pos her0, her, hq, hg]
    field_simp
  have m3 := m2.trans m1
  have hV2 : 0 < coldVoigt 0 g (E - e') s1 := coldVoigt_pos _ _ _ hg0
  have hL2 : Real.log (Real.sqrt 2 / (Real.pi * g * coldVoigt 0 g (E - e') s1)) ≤ L + (2 * (q * u) + 1.01 * u * (1 + 8 * L)) := by
    have h := (abs_le.1 (m3.log hV0).2).1
    have hs2 : (Real.sqrt 2) ≠ 0 := by positivity
    have e1 : L = Real.log (Real.sqrt 2) - (Real.log (Real.pi * g) + Real.log V) := by
      rw [hL, Real.log_div hs2 (by positivity), Real.log_mul (by positivity) hV0.ne']
    rw [Real.log_div hs2 (by positivity), Real.log_mul (by positivity) hV2.ne']
    linarith
  have m4 := voigt_routine_near (x := E - e') hA hu hu1 hv hv0 hv1 hs10 hg0 rs rg
  set L2 := Real.log (Real.sqrt 2 / (Real.pi * g * coldVoigt 0 g (E - e') s1)) with hL2d
  have m5 := (LogNear.of_rel hu hu1'' rics).mul (m4.trans m3)
  have m6 := LogNear.of_rel hu hu1'' ((Rel.refl (n := 0) hu hu1' (ics * vp (A.fl (E - e')) s' g')).round hA.fl hu hu1')
  have m7 := m6.trans m5
  have hL3 : L2 * u ≤ L * u + 1 / 4000 * (2 * (q * u) + 1.01 * u * (1 + 8 * L)) := by
    have h1 := mul_le_mul_of_nonneg_right hL2 hu
    have h2 : 0 ≤ 2 * (q * u) + 1.01 * u * (1 + 8 * L) := by positivity
    have h3 := mul_le_mul_of_nonneg_right hu2 h2
    linarith
  have m8 := m7.mono (ε := 1.01 * ((2 * N + 39 + 97 * L + 2.1 * q) * u + v)) (by
    push_cast
    rw [← hN]
    ring_nf at hL3 ⊢
    linarith)
  refine (m8.abs_le (by linarith)).trans (mul_le_mul_of_nonneg_right ?_ (abs_nonneg _))
  have : 0 ≤ (2 * N + 39 + 97 * L + 2.1 * q) * u + v := by positivity
  linarith

/-- C203, with a bound in terms of the inputs: in units of half the natural width, `x` is the distance from the resonance and `y` the Doppler
width (divided by √2). The number of roundings grows like the logarithm of `1 + x² + y²`, and by
2.1 for each natural width in the resonance energy. -/
theorem C203_voigt_everywhere (hA : A.Accurate u) (hu : 0 ≤ u) (hu1 : u ≤ 1 / 1000) (hv : VoigtAccurate v vp) {k : PhysConst} {init inter : Level}
    {amu T : ℝ} {final : Option Level} {r : Reso} {w : ℝ} (hr : mkVoigt k init inter amu T final = .ok r)
    (hl : inter.Physical) (hw : inter.width = .ok w) (hpos : 0 < w) (ha : 0 < amu) (hT : 0 ≤ T) (hE : init.exc < inter.exc)
    (E x y : ℝ) (hx : x = (E - r.er) / (w / 2))
    (hy : y = dopplerWidth k amu T r.er / Real.sqrt 2 / (w / 2))
    (hD : (2 * inter.channels + 39 + 97 * Real.log (Real.sqrt 2 * (1 + x ^ 2 + y ^ 2)) + 2.1 * ((inter.exc - init.exc) / w)) * u + v ≤ 1 / 110) :
    ∃ σ σ', r.call E = .ok (.fin σ) ∧ A.voigt vp k init inter amu T final E = .ok (.fin σ') ∧
      |σ' - σ| ≤ 1.03 * ((2 * inter.channels + 39 + 97 * Real.log (Real.sqrt 2 * (1 + x ^ 2 + y ^ 2)) + 2.1 * ((inter.exc - init.exc) / w)) * u + v) * |σ| := by
  have hpi := Real.pi_pos
  obtain ⟨r0, d0, ps0, hr0, -, er0⟩ := build_inv (s := .voigt amu T) hr
  have h0 : mkResonance k init inter final noRecoil = .ok r0 := hr0
  obtain ⟨b, hb⟩ : ∃ b, mkBreitWigner k init inter final = .ok b := by simp [mkBreitWigner, h0, hw, bind, Except.bind]
  obtain ⟨P, σ, σ', h1, h2, h3, h4⟩ := C203_voigt hA hu hv hr hb hl hw hpos ha hT hE hu1 E
  refine ⟨σ, σ', h2, h3, ?_⟩
  have hg0 : 0 < w / 2 := by positivity
  have eP : P = r.ics * (1 / (Real.pi * (w / 2))) := by
    obtain ⟨b0, w', hb0, hw', rfl⟩ := mkBreitWigner_inv hb
    rw [hw] at hw'; cases hw'
    rw [h0] at hb0; cases hb0
    have hw2 : 0.5 * w = w / 2 := by ring
    simp only [Reso.call, cauchyDist, scipyDist, locScale, bind, Except.bind, hw2, hg0, if_true, Fl.smul] at h1
    rw [Except.ok.injEq, Fl.fin.injEq] at h1
    rw [← h1, er0]
    simp [cauchyPdf]
  have eσ : σ = r.ics * coldVoigt r.er (w / 2) E (dopplerWidth k amu T r.er / Real.sqrt 2) := by
    have h := voigt_sigma hr ha hT hE hw hpos E
    rw [h2, Except.ok.injEq, Fl.fin.injEq] at h
    exact h
  have hJ := coldVoigt_jensen r.er E (dopplerWidth k amu T r.er / Real.sqrt 2) hg0
  have hV := coldVoigt_pos r.er E (dopplerWidth k amu T r.er / Real.sqrt 2) hg0
  set V := coldVoigt r.er (w / 2) E (dopplerWidth k amu T r.er / Real.sqrt 2) with hVd
  rw [← hx, ← hy] at hJ
  have hX : 1 ≤ 1 + x ^ 2 + y ^ 2 := by nlinarith [sq_nonneg x, sq_nonneg y]
  have hs2 : (1 : ℝ) ≤ Real.sqrt 2 := Real.one_le_sqrt.2 (by norm_num)
  have hlog : Real.log (Real.sqrt 2 * P / σ) ≤ Real.log (Real.sqrt 2 * (1 + x ^ 2 + y ^ 2)) := by
    rcases eq_or_ne r.ics 0 with hi | hi
    · rw [eσ, hi]
      simp only [zero_mul, div_zero, Real.log_zero]
      exact Real.log_nonneg (by nlinarith)
    · have e : Real.sqrt 2 * P / σ = Real.sqrt 2 * (1 / (Real.pi * (w / 2)) / V) := by
        rw [eP, eσ]
        field_simp
      rw [e]
      refine Real.log_le_log (by positivity) (mul_le_mul_of_nonneg_left ?_ (Real.sqrt_nonneg _))
      rw [div_le_iff₀ hV]
      have h5 := mul_le_mul_of_nonneg_left hJ (by linarith : 0 ≤ 1 + x ^ 2 + y ^ 2)
      rw [mul_div_cancel₀ _ (by linarith : (1 + x ^ 2 + y ^ 2) ≠ 0)] at h5
      exact h5
  have hm := mul_le_mul_of_nonneg_right hlog hu
  have hle : (2 * inter.channels + 39 + 97 * Real.log (Real.sqrt 2 * P / σ) + 2.1 * ((inter.exc - init.exc) / w)) * u + v ≤
      (2 * inter.channels + 39 + 97 * Real.log (Real.sqrt 2 * (1 + x ^ 2 + y ^ 2)) + 2.1 * ((inter.exc - init.exc) / w)) * u + v := by linarith
  refine (h4 (hle.trans hD)).trans (mul_le_mul_of_nonneg_right ?_ (abs_nonneg _))
  exact mul_le_mul_of_nonneg_left hle (by norm_num)

/-- an isomer at 125 keV, above 1/8 MeV by one unit in the last place -/
noncomputable def exIsomer : Level := state "3/2^-_1" 3 (-1) (1 / 8 + 1 / 2 ^ 55) []

/-- a level at 1.125 MeV with the width `w` -/
noncomputable def exAbove (w : ℝ) : Level := state "1/2^-_1" 1 (-1) (9 / 8) [("3/2^-_1", w)]

theorem exAbove_width (w : ℝ) : (exAbove w).width = .ok w := by
  simp [Level.width, Level.partialWidths, exAbove, state, lookup, pyNumSum, bind, Except.bind, pure, Except.pure]

theorem exAbove_physical {w : ℝ} (hw : 0 ≤ w) : (exAbove w).Physical := by
  intro pw h
  simp only [exAbove, state, Option.some.injEq] at h
  subst h
  exact ⟨by simp, by simpa using hw⟩

theorem exState_resonance (a b : ℝ) {w : ℝ} (hab : b - a ≠ 0) (hw : 0 < w) : ∃ r, mkResonance exConst (state "3/2^-_1" 3 (-1) a [])
    (state "1/2^-_1" 1 (-1) b [("3/2^-_1", w)]) none noRecoil = .ok r ∧ r.er = b - a ∧ 0 < r.ics := by
  have := Real.pi_pos
  simp [mkResonance, statFactor, fdiv, branchingRatio, integratedCS, exConst, state, hab, Level.partialWidths, lookup, bind, Except.bind, noRecoil]
  rw [if_neg (by norm_num)]
  refine ⟨_, rfl, rfl, ?_⟩
  simp only
  positivity

theorem exAbove_resonance {w : ℝ} (hw : 0 < w) : ∃ r, mkResonance exConst exIsomer (exAbove w) none noRecoil = .ok r ∧ r.er = 1 - 1 / 2 ^ 55 ∧
    0 < r.ics := by
  obtain ⟨r, h, e, hI⟩ := exState_resonance (1 / 8 + 1 / 2 ^ 55) (9 / 8) (by norm_num) hw
  exact ⟨r, h, by rw [e]; norm_num, hI⟩

theorem exAbove_breitWigner {w : ℝ} {r : Reso} (h : mkResonance exConst exIsomer (exAbove w) none noRecoil = .ok r) :
    mkBreitWigner exConst exIsomer (exAbove w) none = .ok { r with dist := cauchyDist, params := [r.er, 0.5 * w] } := by
  simp [mkBreitWigner, h, exAbove_width, bind, Except.bind]

theorem exAbove_voigt {w : ℝ} {r0 : Reso} (h : mkResonance exConst exIsomer (exAbove w) none noRecoil = .ok r0) :
    ∃ r, mkVoigt exConst exIsomer (exAbove w) 11 293 none = .ok r ∧ r.er = r0.er := by
  refine ⟨{ r0 with dist := (mkPV r0.er w (dopplerWidth exConst 11 293 r0.er)).toSemiDist, params := [] }, ?_, rfl⟩
  simp [mkVoigt, mkPseudoVoigt, h, exAbove_width, getDopplerWidth_ok exConst (show (11 : ℝ) ≠ 0 by norm_num), bind, Except.bind]

theorem exAbove_channels (w : ℝ) : ((exAbove w).channels : ℝ) = 1 := by norm_num [Level.channels, exAbove, state]

/-- The hypotheses of `C203_breit_wigner`: from the isomer to a level with a width of 1 meV (`2^-30` MeV), double precision gives six digits. -/
example (E : ℝ) : ∃ r σ σ', mkBreitWigner exConst exIsomer (exAbove (1 / 2 ^ 30)) none = .ok r ∧ r.call E = .ok (.fin σ) ∧
    exRArith.breitWigner exConst exIsomer (exAbove (1 / 2 ^ 30)) none E = .ok (.fin σ') ∧ |σ' - σ| ≤ 3e-7 * |σ| := by
  obtain ⟨r0, h0, -, -⟩ := exAbove_resonance (show (0 : ℝ) < 1 / 2 ^ 30 by norm_num)
  have hr := exAbove_breitWigner h0
  have e : |(exAbove (1 / 2 ^ 30)).exc - exIsomer.exc| = 1 - 1 / 2 ^ 55 := by
    simp only [exAbove, exIsomer, state]
    norm_num
  have hb : (4 * ((exAbove (1 / 2 ^ 30)).channels : ℝ) + 36 + 2 * (|(exAbove (1 / 2 ^ 30)).exc - exIsomer.exc| / (1 / 2 ^ 30))) * (1 / 2 ^ 53) ≤ 2.5e-7 := by
    rw [e, exAbove_channels]
    norm_num
  obtain ⟨σ, σ', h1, h2, h3⟩ := C203_breit_wigner exRArith_accurate (by norm_num) hr (exAbove_physical (by norm_num)) (exAbove_width _)
    (by norm_num) (hb.trans (by norm_num)) E
  refine ⟨_, σ, σ', hr, h1, h2, h3.trans (mul_le_mul_of_nonneg_right ?_ (abs_nonneg _))⟩
  rw [mul_assoc]
  linarith

/-- The hypotheses of `C203_voigt_everywhere`: from the isomer to a level with a width of 1 meV at room temperature, double precision and a routine accurate
to `1e-13` give six digits within 1 keV of the resonance. -/
example (hv : VoigtAccurate 1e-13 vp) (E : ℝ) (hE : |E - (1 - 1 / 2 ^ 55)| ≤ 1e-3) :
    ∃ r σ σ', mkVoigt exConst exIsomer (exAbove (1 / 2 ^ 30)) 11 293 none = .ok r ∧
    r.call E = .ok (.fin σ) ∧ exRArith.voigt vp exConst exIsomer (exAbove (1 / 2 ^ 30)) 11 293 none E = .ok (.fin σ') ∧ |σ' - σ| ≤ 3e-7 * |σ| := by
  obtain ⟨r0, h0, her, -⟩ := exAbove_resonance (show (0 : ℝ) < 1 / 2 ^ 30 by norm_num)
  obtain ⟨r, hr, hre⟩ := exAbove_voigt h0
  have hs2 : Real.sqrt 2 ^ 2 = 2 := Real.sq_sqrt (by norm_num)
  have hs3 : Real.sqrt 2 ≤ 1.5 := Real.sqrt_le_iff.2 (by norm_num)
  set x := (E - r.er) / (1 / 2 ^ 30 / 2) with hx
  set y := dopplerWidth exConst 11 293 r.er / Real.sqrt 2 / (1 / 2 ^ 30 / 2) with hy
  have hx2 : x ^ 2 ≤ 1e13 := by
    rw [hx, hre, her]
    have h := sq_le_sq' (abs_le.1 hE).1 (abs_le.1 hE).2
    rw [div_pow, div_le_iff₀ (by norm_num)]
    refine h.trans ?_
    norm_num
  have hy2 : y ^ 2 ≤ 1e13 := by
    rw [hy, hre, her, div_pow, div_pow, hs2]
    unfold dopplerWidth
    rw [mul_pow, Real.sq_sqrt (by norm_num [exConst])]
    norm_num [exConst]
  have hlog : Real.log (Real.sqrt 2 * (1 + x ^ 2 + y ^ 2)) ≤ 40 := by
    have h1 : Real.sqrt 2 * (1 + x ^ 2 + y ^ 2) ≤ 1e14 := by nlinarith [sq_nonneg x, sq_nonneg y, Real.sqrt_nonneg 2]
    have h0 : 0 < Real.sqrt 2 * (1 + x ^ 2 + y ^ 2) := by positivity
    rw [Real.log_le_iff_le_exp h0]
    refine h1.trans ?_
    have := Real.exp_one_gt_d9
    have e : Real.exp 40 = Real.exp 1 ^ 40 := by rw [← Real.exp_nat_mul]; norm_num
    rw [e]
    have h5 : (2.7 : ℝ) ^ 40 ≤ Real.exp 1 ^ 40 := pow_le_pow_left₀ (by norm_num) (by linarith) 40
    exact le_trans (by norm_num) h5
  have e : (exAbove (1 / 2 ^ 30)).exc - exIsomer.exc = 1 - 1 / 2 ^ 55 := by
    simp only [exAbove, exIsomer, state]
    norm_num
  have hb : (2 * ((exAbove (1 / 2 ^ 30)).channels : ℝ) + 39 + 97 * Real.log (Real.sqrt 2 * (1 + x ^ 2 + y ^ 2)) +
      2.1 * (((exAbove (1 / 2 ^ 30)).exc - exIsomer.exc) / (1 / 2 ^ 30))) * (1 / 2 ^ 53) + 1e-13 ≤ 2.6e-7 := by
    rw [e, exAbove_channels]
    norm_num
    linarith
  obtain ⟨σ, σ', h1, h2, h3⟩ := C203_voigt_everywhere exRArith_accurate (by norm_num) (by norm_num) hv hr (exAbove_physical (by norm_num))
    (exAbove_width _) (by norm_num) (by norm_num) (by norm_num) (by norm_num [exAbove, exIsomer, state]) E x y hx hy (hb.trans (by norm_num))
  refine ⟨r, σ, σ', hr, h1, h2, h3.trans (mul_le_mul_of_nonneg_right ?_ (abs_nonneg _))⟩
  linarith

/-- C203: without a bound on the number of widths in the resonance energy there is no accuracy at all. In double precision, at an energy and for levels
whose energies and widths are doubles, the computed Breit-Wigner cross section is more than a thousand times too large. The width is `2^-60` MeV,
which is a lifetime of less than a millisecond. -/
theorem C203_narrow : ∃ init inter : Level, ∃ E w r σ σ', inter.Physical ∧ inter.width = .ok w ∧ 0 < w ∧
    rn init.exc = init.exc ∧ rn inter.exc = inter.exc ∧ rn w = w ∧ rn E = E ∧ exRArith.Accurate (1 / 2 ^ 53) ∧
    mkBreitWigner exConst init inter none = .ok r ∧ r.call E = .ok (.fin σ) ∧ exRArith.breitWigner exConst init inter none E = .ok (.fin σ') ∧
    0 < σ ∧ 1000 * σ ≤ σ' := by
  have hw : (0 : ℝ) < 1 / 2 ^ 60 := by norm_num
  have hpi := Real.pi_pos
  obtain ⟨r, h0, her, hI⟩ := exAbove_resonance hw
  obtain ⟨σ', e', n1⟩ := RArith.breitWigner_shifted exRArith_accurate (by norm_num) (by norm_num) h0 (exAbove_physical hw.le) (exAbove_width _) hw 1
  have hf : exRArith.fl r.er = 1 := by
    change rn r.er = 1
    rw [her]
    have := rn_val (x := 1 - 1 / 2 ^ 55) (-1) (2 ^ 53) (by norm_num) (by norm_num) (by norm_num) (by norm_num)
    rw [this]
    norm_num
  rw [hf, exAbove_channels] at n1
  have h1 := n1.abs_le (by norm_num)
  have eP : cauchyPdf 1 (1 / 2 ^ 60 / 2) 1 = 1 / (Real.pi * (1 / 2 ^ 60 / 2)) := by unfold cauchyPdf; simp
  have eσ : cauchyPdf (1 - 1 / 2 ^ 55) (0.5 * (1 / 2 ^ 60)) 1 = 1 / 4097 * cauchyPdf 1 (1 / 2 ^ 60 / 2) 1 := by
    rw [eP]
    unfold cauchyPdf
    have e : ((1 - (1 - 1 / 2 ^ 55)) / (0.5 * (1 / 2 ^ 60)) : ℝ) = 64 := by norm_num
    rw [e]
    field_simp
    norm_num
  have hP : 0 < r.ics * cauchyPdf 1 (1 / 2 ^ 60 / 2) 1 := by
    rw [eP]
    positivity
  set P := r.ics * cauchyPdf 1 (1 / 2 ^ 60 / 2) 1 with hPd
  refine ⟨exIsomer, exAbove (1 / 2 ^ 60), 1, 1 / 2 ^ 60, { r with dist := cauchyDist, params := [r.er, 0.5 * (1 / 2 ^ 60)] }, 1 / 4097 * P, σ',
    exAbove_physical hw.le, exAbove_width _, hw, ?_, ?_, ?_, ?_, exRArith_accurate, ?_, ?_, e', by positivity, ?_⟩
  · have := rn_val (x := 1 / 8 + 1 / 2 ^ 55) (-3) (2 ^ 52 + 1) (by norm_num) (by norm_num) (by norm_num) (by norm_num)
    simp only [exIsomer, state]
    rw [this]
    norm_num
  · have := rn_val (x := 9 / 8) 0 (2 ^ 52 + 2 ^ 49) (by norm_num) (by norm_num) (by norm_num) (by norm_num)
    simp only [exAbove, state]
    rw [this]
    norm_num
  · have := rn_val (x := 1 / 2 ^ 60) (-60) (2 ^ 52) (by norm_num) (by norm_num) (by norm_num) (by norm_num)
    rw [this]
    norm_num
  · exact_mod_cast rn_exact (n := 1) (by norm_num)
  · exact exAbove_breitWigner h0
  · have hs : (0 : ℝ) < 0.5 * (1 / 2 ^ 60) := by norm_num
    simp only [Reso.call, cauchyDist, scipyDist, locScale, bind, Except.bind, hs, if_true, Fl.smul]
    rw [her, eσ, hPd]
    congr 2
    ring
  · rw [abs_of_pos hP] at h1
    have h2 := (abs_le.1 h1).1
    have h3 : 1.01 * (1.01 * ((4 * (1 : ℝ) + 36) * (1 / 2 ^ 53))) ≤ 1 / 2 := by norm_num
    have h4 := mul_le_mul_of_nonneg_right h3 hP.le
    linarith

end Ries
