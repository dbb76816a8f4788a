import Verif.Model.PseudoVoigt
import Mathlib.MeasureTheory.Integral.IntervalIntegral.Basic

/-! # Vocabulary for the statements about resonances -/

open MeasureTheory

namespace Ries

/-- `σ` is the (everywhere finite) cross section computed by calling the resonance. -/
def Reso.HasSigma (r : Reso) (σ : ℝ → ℝ) : Prop := ∀ E, r.call E = .ok (.fin (σ E))

/-- Every interval of the grid carries the amount `v` of the integral of `σ`. -/
def EqualShares (σ : ℝ → ℝ) (g : List ℝ) (v : ℝ) : Prop :=
  ∀ i, (h : i + 1 < g.length) → ∫ E in g[i]..g[i + 1], σ E = v

/-- Every interval of the grid carries the amount `v` of the integral of `σ`, up to `δ`. -/
def NearShares (σ : ℝ → ℝ) (g : List ℝ) (v δ : ℝ) : Prop :=
  ∀ i, (h : i + 1 < g.length) → |(∫ E in g[i]..g[i + 1], σ E) - v| ≤ δ

/-- A correctly built Breit-Wigner resonance of positive width. -/
def IsBreitWigner (r : Reso) : Prop :=
  ∃ k init inter final w, mkBreitWigner k init inter final = .ok r ∧ inter.width = .ok w ∧ 0 < w

/-- A correctly built Gauss resonance with positive mass, temperature and resonance energy. -/
def IsGauss (r : Reso) : Prop :=
  ∃ k init inter amu T final, mkGauss k init inter amu T final = .ok r ∧ 0 < amu ∧ 0 < T ∧
    init.exc < inter.exc

/-- A correctly built pseudo-Voigt resonance: positive mass and resonance energy, nonnegative temperature and width, not
both zero. -/
def IsPseudoVoigt (r : Reso) : Prop :=
  ∃ k init inter amu T final w, mkPseudoVoigt k init inter amu T final = .ok r ∧ 0 < amu ∧ 0 ≤ T ∧
    init.exc < inter.exc ∧ inter.width = .ok w ∧ 0 ≤ w ∧ (0 < w ∨ 0 < T)

/-- A correctly built Voigt resonance, same conditions. -/
def IsVoigt (r : Reso) : Prop :=
  ∃ k init inter amu T final w, mkVoigt k init inter amu T final = .ok r ∧ 0 < amu ∧ 0 ≤ T ∧
    init.exc < inter.exc ∧ inter.width = .ok w ∧ 0 ≤ w ∧ (0 < w ∨ 0 < T)

/-- A correctly built pseudo-Voigt resonance of width `w` and Doppler width `d`. -/
def IsPseudoVoigtOf (r : Reso) (w d : ℝ) : Prop :=
  ∃ k init inter amu T final, mkPseudoVoigt k init inter amu T final = .ok r ∧ 0 < amu ∧ 0 ≤ T ∧
    init.exc < inter.exc ∧ inter.width = .ok w ∧ getDopplerWidth k amu T r.er = .ok d ∧ 0 ≤ w ∧ (0 < w ∨ 0 < T)

/-- A correctly built Voigt resonance of width `w` and Doppler width `d`. -/
def IsVoigtOf (r : Reso) (w d : ℝ) : Prop :=
  ∃ k init inter amu T final, mkVoigt k init inter amu T final = .ok r ∧ 0 < amu ∧ 0 ≤ T ∧
    init.exc < inter.exc ∧ inter.width = .ok w ∧ getDopplerWidth k amu T r.er = .ok d ∧ 0 ≤ w ∧ (0 < w ∨ 0 < T)

end Ries
