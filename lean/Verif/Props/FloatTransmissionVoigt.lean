import Verif.Props.FloatTransmission
import Verif.Props.RoundedVoigtValue

/-! # Property C195 for Voigt resonances -/

open Set

namespace Ries

/-- C195 for Doppler-broadened resonances: as `C195_transmission`, with a routine for the Voigt profile of relative error `v`. The number of
roundings includes the logarithm of `1 + x² + y²`, with the distance `x` from the resonance and the Doppler width `y` in units of half the natural
width. -/
theorem C195_voigt {A B : RArith} {u v ω δ mu : ℝ} {vp : ℝ → ℝ → ℝ → ℝ} {lg pw : ℝ → ℝ} (hA : A.Accurate u) (hm : Monotone A.fl) (hvp : VoigtAccurate v vp) (hB : B.Underflowing u ω) (hu0 : 0 ≤ u)
    (hu1 : u ≤ 1 / 10 ^ 15) (hω : 0 ≤ ω) (hlg : LogApprox δ lg) (hpw : PowApprox δ pw) (h0 : 0 ≤ δ) (h1 : δ ≤ 1 / 10 ^ 15) :
    ∃ st, importXrmac shippedNist.render shippedDensities.render xrmacText mu = .ok st ∧
      ∀ Z ∈ List.range' 1 92, ∃ (g : StoredXrmac) (f : ℝ → ℝ), dictGet (symbolOf Z) st.perGram = .ok g ∧
        (∀ E, 0 ≤ E → g.call E = .ok (.fin (f E)) ∧ 0 < f E) ∧
        ∀ {k : PhysConst} {init inter : Level} {final : Option Level} {amu T w : ℝ} {r : Reso}, mkVoigt k init inter amu T final = .ok r → 0 < amu → 0 ≤ T →
          init.exc < inter.exc →
          inter.Physical → inter.width = .ok w → 0 < w → 0 ≤ r.ics → A.fl (inter.exc - init.exc) = inter.exc - init.exc →
          ∀ {x : ℝ}, 0 ≤ x → ∀ E ∈ Icc (0.116 : ℝ) 19,
          (2 * inter.channels + 35 + 88 * Real.log (Real.sqrt 2 * (1 + ((E - r.er) / (w / 2)) ^ 2 +
            (dopplerWidth k amu T r.er / Real.sqrt 2 / (w / 2)) ^ 2))) * u + v ≤ 4.8e-12 → ∃ σ, r.call E = .ok (.fin σ) ∧ 0 ≤ σ ∧
          ∃ p : ℝ → ℝ, (∀ ρ, B.layerPhi E ρ (finiteValues (xrmacCallR A.fl lg pw (storedRows A.fl (xrmacLines Z))))
              (finiteValues (A.voigt vp k init inter amu T final)) x = .ok (p ρ)) ∧ p 0 = 1 ∧ AntitoneOn p (Ici 0) ∧
            ∀ ρ, 0 ≤ ρ → 0 ≤ p ρ ∧ p ρ ≤ 1 ∧ |p ρ - Real.exp (-(f E + x * σ) * ρ)| ≤ 6e-12 + 5 * (ω * (ρ + 1)) ∧
              ∃ α, B.layerAlpha E ρ (finiteValues (xrmacCallR A.fl lg pw (storedRows A.fl (xrmacLines Z))))
                  (finiteValues (A.voigt vp k init inter amu T final)) x = .ok α ∧ 0 ≤ α ∧
                |α - x * σ * Real.exp (-(f E + x * σ) * ρ)| ≤ (1.2e-11 + 5 * (ω * (ρ + 1))) * (x * σ) + 3 * ω := by
  obtain ⟨st, i1, i⟩ := C192_above (mu := mu) hA.fl hu0 hu1 hm hlg hpw h0 h1
  refine ⟨st, i1, fun Z hZ => ?_⟩
  obtain ⟨g, f, i2, i3, -, -, i4⟩ := i Z hZ
  refine ⟨g, f, i2, i3, ?_⟩
  intro k init inter final amu T w r hr ha hT hlt hl hw hpos hI hex x hx E hE hN
  obtain ⟨a', ha', ea⟩ := i4 E hE
  obtain ⟨σ, σ', hσ, hσ', es⟩ := C202_voigt_everywhere hA hu0 (hu1.trans (by norm_num)) hvp hr hl hw hpos ha hT hlt hex E _ _ rfl rfl (hN.trans (by norm_num))
  have hE0 : (0 : ℝ) ≤ E := le_trans (by norm_num) hE.1
  have hσ0 : 0 ≤ σ := by
    have hs := voigt_sigma hr ha hT hlt hw hpos E
    rw [hσ] at hs
    have := Fl.fin.inj (Except.ok.inj hs)
    rw [this]
    exact mul_nonneg hI (coldVoigt_pos _ _ _ (by linarith)).le
  rw [abs_of_nonneg hσ0] at es
  have eb : |σ' - σ| ≤ 5e-12 * σ := es.trans (mul_le_mul_of_nonneg_right ((mul_le_mul_of_nonneg_left hN (by norm_num)).trans (by norm_num)) hσ0)
  have n1 : finiteValues (xrmacCallR A.fl lg pw (storedRows A.fl (xrmacLines Z))) E = .ok a' := by rw [finiteValues, ha']
  have n2 : finiteValues (A.voigt vp k init inter amu T final) E = .ok σ' := by rw [finiteValues, hσ']
  have hu2 : u ≤ 1 / 1000 := hu1.trans (by norm_num)
  obtain ⟨p, hp, hp0, hpa, hpe⟩ := C193_flux hB hu0 hu2 hω (ε := 5e-12) (by norm_num) (by norm_num) hx (i3 E hE0).2.le hσ0 n1 n2 ea eb
  refine ⟨σ, hσ, hσ0, p, hp, hp0, hpa, fun ρ hρ => ?_⟩
  obtain ⟨q0, q1, q2⟩ := hpe ρ hρ
  obtain ⟨α, v1, v2, v3⟩ := C193_rate hB hu0 hu2 hω (ε := 5e-12) (by norm_num) (by norm_num) hx (i3 E hE0).2.le hσ0 n1 n2 ea eb hρ
  refine ⟨q0, q1, q2.trans (by norm_num at hu1 ⊢; linarith), α, v1, v2, v3.trans ?_⟩
  gcongr ?_ * _ + _
  · norm_num at hu1 ⊢
    linarith

/-- photons of 2 MeV, on the resonance at room temperature, behind 100 g/cm² of lead: the hypotheses are met in double precision with underflow -/
example {vp : ℝ → ℝ → ℝ → ℝ} (hvp : VoigtAccurate 1e-13 vp) : ∃ a b p : ℝ, 0 < a ∧ 0 ≤ b ∧ flushedArith.layerPhi 2 100
    (finiteValues (xrmacCallR KN.rn (fun x => KN.rn (Real.logb 10 x)) (fun y => KN.rn ((10 : ℝ) ^ y)) (storedRows KN.rn (xrmacLines 82))))
    (finiteValues (exRArith.voigt vp exConst exGround exExcited 11 293 none)) 1 = .ok p ∧ |p - Real.exp (-(a + 1 * b) * 100)| ≤ 7e-12 := by
  obtain ⟨r, hr, he⟩ := exVoigt 293
  have hI : 0 ≤ r.ics := by
    obtain ⟨r0, d0, ps0, hr0, -, er0⟩ := build_inv (s := .voigt 11 293) hr
    have h0 : mkResonance exConst exGround exExcited none noRecoil = .ok r0 := hr0
    obtain ⟨r1, h1, hI⟩ : ∃ r, mkResonance exConst exGround exExcited none noRecoil = .ok r ∧ 0 < r.ics := by
      simp [mkResonance, statFactor, fdiv, branchingRatio, integratedCS, exGround, exExcited, groundState, state,
        Level.partialWidths, lookup, bind, Except.bind, noRecoil]
      norm_num
      have := exConst.hbarc_pos
      positivity
    rw [h0] at h1; cases h1
    rw [er0]; exact hI.le
  have hc : (exExcited.channels : ℝ) = 2 := by norm_num [Level.channels, exExcited, state]
  have hn := normal_le
  have hn0 : (0 : ℝ) < 2 ^ (-1022 : ℤ) := by positivity
  obtain ⟨st, -, h⟩ := C195_voigt (mu := 1) exRArith_accurate KN.rn_monotone hvp flushedArith_underflowing (by norm_num) (by norm_num)
    hn0.le rn_log rn_pow (by norm_num) (by norm_num)
  obtain ⟨g, f, -, h1, h2⟩ := h 82 (by decide)
  have hs2 : Real.sqrt 2 ^ 2 = 2 := Real.sq_sqrt (by norm_num)
  have hs3 : Real.sqrt 2 ≤ 1.5 := Real.sqrt_le_iff.2 (by norm_num)
  have hy2 : (dopplerWidth exConst 11 293 r.er / Real.sqrt 2 / (4 / 2)) ^ 2 ≤ 1 := by
    rw [he, div_pow, div_pow, hs2]
    unfold dopplerWidth
    rw [mul_pow, Real.sq_sqrt (by norm_num [exConst])]
    norm_num [exConst]
  have hlog : Real.log (Real.sqrt 2 * (1 + ((2 - r.er) / (4 / 2)) ^ 2 + (dopplerWidth exConst 11 293 r.er / Real.sqrt 2 / (4 / 2)) ^ 2)) ≤ 2 := by
    rw [show (2 - r.er) / (4 / 2) = 0 by rw [he]; norm_num]
    set y := dopplerWidth exConst 11 293 r.er / Real.sqrt 2 / (4 / 2)
    have h0 : 0 < Real.sqrt 2 * (1 + (0 : ℝ) ^ 2 + y ^ 2) := by positivity
    have h1 : Real.sqrt 2 * (1 + (0 : ℝ) ^ 2 + y ^ 2) ≤ 3 := by nlinarith [sq_nonneg y, Real.sqrt_nonneg 2]
    have := Real.log_le_sub_one_of_pos h0
    linarith
  obtain ⟨σ, -, σ0, p, hp, -, -, hpe⟩ := h2 hr (by norm_num) (by norm_num) (by norm_num [exExcited, exGround, state, groundState])
    exExcited_physical exExcited_width (by norm_num) hI exExcited_exact zero_le_one 2 (by constructor <;> norm_num)
    (by rw [hc]; norm_num at hlog ⊢; linarith)
  refine ⟨f 2, σ, p 100, (h1 2 (by norm_num)).2, σ0, hp 100, (hpe 100 (by norm_num)).2.2.1.trans ?_⟩
  generalize (2 : ℝ) ^ (-1022 : ℤ) = m at *
  norm_num at *
  linarith

end Ries
