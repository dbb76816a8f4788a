import Verif.Props.FloatFlux
import Verif.Props.FloatTable
import Verif.Props.RoundedReso

/-! # C195: from level data and shipped tables to the transmitted flux -/

namespace Ries

open Set Text

/-- **C195** Flux behind, and rate of resonance absorption in, a target of any element, computed in floating point from the lines of the shipped
tables and from the data of the levels. -/
theorem C195_transmission {A B : RArith} {u ω δ mu : ℝ} {lg pw : ℝ → ℝ} (hA : A.Accurate u) (hm : Monotone A.fl) (hB : B.Underflowing u ω) (hu0 : 0 ≤ u)
    (hu1 : u ≤ 1 / 10 ^ 15) (hω : 0 ≤ ω) (hlg : LogApprox δ lg) (hpw : PowApprox δ pw) (h0 : 0 ≤ δ) (h1 : δ ≤ 1 / 10 ^ 15) :
    ∃ st, importXrmac shippedNist.render shippedDensities.render xrmacText mu = .ok st ∧
      ∀ Z ∈ List.range' 1 92, ∃ (g : StoredXrmac) (f : ℝ → ℝ), dictGet (symbolOf Z) st.perGram = .ok g ∧
        (∀ E, 0 ≤ E → g.call E = .ok (.fin (f E)) ∧ 0 < f E) ∧
        ∀ {k : PhysConst} {init inter : Level} {final : Option Level} {r : Reso} {w : ℝ}, mkBreitWigner k init inter final = .ok r →
          inter.Physical → inter.width = .ok w → 0 < w → 0 ≤ r.ics → A.fl (inter.exc - init.exc) = inter.exc - init.exc →
          (4 * inter.channels + 34 : ℝ) * u ≤ 4.9e-12 → ∀ {x : ℝ}, 0 ≤ x → ∀ E ∈ Icc (0.116 : ℝ) 19, ∃ σ, r.call E = .ok (.fin σ) ∧ 0 ≤ σ ∧
          ∃ p : ℝ → ℝ, (∀ ρ, B.layerPhi E ρ (finiteValues (xrmacCallR A.fl lg pw (storedRows A.fl (xrmacLines Z))))
              (finiteValues (A.breitWigner k init inter final)) x = .ok (p ρ)) ∧ p 0 = 1 ∧ AntitoneOn p (Ici 0) ∧
            ∀ ρ, 0 ≤ ρ → 0 ≤ p ρ ∧ p ρ ≤ 1 ∧ |p ρ - Real.exp (-(f E + x * σ) * ρ)| ≤ 6e-12 + 5 * (ω * (ρ + 1)) ∧
              ∃ v, B.layerAlpha E ρ (finiteValues (xrmacCallR A.fl lg pw (storedRows A.fl (xrmacLines Z))))
                  (finiteValues (A.breitWigner k init inter final)) x = .ok v ∧ 0 ≤ v ∧
                |v - x * σ * Real.exp (-(f E + x * σ) * ρ)| ≤ (1.2e-11 + 5 * (ω * (ρ + 1))) * (x * σ) + 3 * ω := by
  obtain ⟨st, i1, i⟩ := C192_above (mu := mu) hA.fl hu0 hu1 hm hlg hpw h0 h1
  refine ⟨st, i1, fun Z hZ => ?_⟩
  obtain ⟨g, f, i2, i3, -, -, i4⟩ := i Z hZ
  refine ⟨g, f, i2, i3, ?_⟩
  intro k init inter final r w hr hl hw hpos hI hex hN x hx E hE
  obtain ⟨a', ha', ea⟩ := i4 E hE
  obtain ⟨σ, σ', hσ, hσ', es⟩ := C94_breit_wigner hA hu0 hr hl hw hpos hex (hN.trans (by norm_num)) E
  have hE0 : (0 : ℝ) ≤ E := le_trans (by norm_num) hE.1
  have hσ0 : 0 ≤ σ := by
    obtain ⟨r0, w', h0, hw', rfl⟩ := mkBreitWigner_inv hr
    rw [hw] at hw'; cases hw'
    have hs := (analytic_cauchy (r := { r0 with dist := cauchyDist, params := [r0.er, 0.5 * w] }) rfl rfl (by linarith : 0 < 0.5 * w)).sigma E
    rw [hσ] at hs
    have := Fl.fin.inj (Except.ok.inj hs)
    rw [this]
    exact mul_nonneg hI (cauchyPdf_pos (by linarith) _ _).le
  rw [abs_of_nonneg hσ0] at es
  have eb : |σ' - σ| ≤ 5e-12 * σ := es.trans (mul_le_mul_of_nonneg_right (by norm_num at hN ⊢; linarith) hσ0)
  have n1 : finiteValues (xrmacCallR A.fl lg pw (storedRows A.fl (xrmacLines Z))) E = .ok a' := by rw [finiteValues, ha']
  have n2 : finiteValues (A.breitWigner k init inter final) E = .ok σ' := by rw [finiteValues, hσ']
  have hu2 : u ≤ 1 / 1000 := hu1.trans (by norm_num)
  obtain ⟨p, hp, hp0, hpa, hpe⟩ := C193_flux hB hu0 hu2 hω (ε := 5e-12) (by norm_num) (by norm_num) hx (i3 E hE0).2.le hσ0 n1 n2 ea eb
  refine ⟨σ, hσ, hσ0, p, hp, hp0, hpa, fun ρ hρ => ?_⟩
  obtain ⟨q0, q1, q2⟩ := hpe ρ hρ
  obtain ⟨v, v1, v2, v3⟩ := C193_rate hB hu0 hu2 hω (ε := 5e-12) (by norm_num) (by norm_num) hx (i3 E hE0).2.le hσ0 n1 n2 ea eb hρ
  refine ⟨q0, q1, q2.trans (by norm_num at hu1 ⊢; linarith), v, v1, v2, v3.trans ?_⟩
  gcongr ?_ * _ + _
  · norm_num at hu1 ⊢
    linarith

/-- photons of 2 MeV, on the resonance, behind 100 g/cm² of lead: the hypotheses are met in double precision with underflow -/
example : ∃ a b p : ℝ, 0 < a ∧ 0 ≤ b ∧ flushedArith.layerPhi 2 100
    (finiteValues (xrmacCallR KN.rn (fun x => KN.rn (Real.logb 10 x)) (fun y => KN.rn ((10 : ℝ) ^ y)) (storedRows KN.rn (xrmacLines 82))))
    (finiteValues (exRArith.breitWigner exConst exGround exExcited none)) 1 = .ok p ∧ |p - Real.exp (-(a + 1 * b) * 100)| ≤ 7e-12 := by
  obtain ⟨r, hr, hI, he⟩ : ∃ r, mkBreitWigner exConst exGround exExcited none = .ok r ∧ 0 < r.ics ∧ r.er = 2 := by
    obtain ⟨r, h, he, hI⟩ : ∃ r, mkResonance exConst exGround exExcited none noRecoil = .ok r ∧ r.er = 2 ∧ 0 < r.ics := by
      simp [mkResonance, statFactor, fdiv, branchingRatio, integratedCS, exGround, exExcited, groundState, state,
        Level.partialWidths, lookup, bind, Except.bind, noRecoil]
      norm_num
      have := exConst.hbarc_pos
      positivity
    exact ⟨{ r with dist := cauchyDist, params := [r.er, 0.5 * 4] }, by simp [mkBreitWigner, h, exExcited_width, bind, Except.bind], hI, he⟩
  have hc : (exExcited.channels : ℝ) = 2 := by norm_num [Level.channels, exExcited, state]
  have hn := normal_le
  have hn0 : (0 : ℝ) < 2 ^ (-1022 : ℤ) := by positivity
  obtain ⟨st, -, h⟩ := C195_transmission (mu := 1) exRArith_accurate KN.rn_monotone flushedArith_underflowing (by norm_num) (by norm_num)
    hn0.le rn_log rn_pow (by norm_num) (by norm_num)
  obtain ⟨g, f, -, h1, h2⟩ := h 82 (by decide)
  obtain ⟨σ, -, σ0, p, hp, -, -, hpe⟩ := h2 hr exExcited_physical exExcited_width (by norm_num) hI.le exExcited_exact
    (by rw [hc]; norm_num) zero_le_one 2 (by constructor <;> norm_num)
  refine ⟨f 2, σ, p 100, (h1 2 (by norm_num)).2, σ0, hp 100, (hpe 100 (by norm_num)).2.2.1.trans ?_⟩
  generalize (2 : ℝ) ^ (-1022 : ℤ) = m at *
  norm_num at *
  linarith

end Ries
