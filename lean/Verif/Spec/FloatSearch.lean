import Verif.Spec.Rounded
import Verif.Spec.Resonance

/-! # Specification: computed distribution functions and quantiles that can be searched for -/

namespace Ries

/-- What is assumed about the floating-point arithmetic and about the computed distribution function and density of a pseudo-Voigt
distribution with centre `er`, true functions `F` and `p`: relative error at most `u` per operation, distribution function off by at
most `η`, density off by at most `η` times its maximum, and up to a distance `L` of the centre by at most `η` times its value. -/
structure FloatPV (fl Fc pc F p : ℝ → ℝ) (er u η L : ℝ) : Prop where
  rounding : Rounding u fl
  u0 : 0 ≤ u
  u1 : u ≤ 1 / 1000
  η0 : 0 ≤ η
  η1 : η ≤ 1 / 1000
  cdf : ∀ x, |Fc x - F x| ≤ η
  pdf : ∀ x, |pc x - p x| ≤ η * p er
  pdf_near : ∀ x, |x - er| ≤ L → |pc x - p x| ≤ η * p x

/-- A quantile for which the search is claimed to converge: between `ε` and `1 - ε`, and either far enough from the median, or the
median itself if the computed distribution function is 1/2 at the centre and the centre is a floating-point number. -/
def Searchable (fl Fc : ℝ → ℝ) (er Γ ε q : ℝ) : Prop :=
  ε ≤ q ∧ q ≤ 1 - ε ∧ ((q = 1 / 2 ∧ Fc er = 1 / 2 ∧ fl er = er) ∨ 1e-9 ≤ |q - 1 / 2| * Γ)

/-- A pseudo-Voigt resonance of width `w` and Doppler width `d` whose distribution function `F` and density `p` are computed with these
errors, small compared to `ε` (C187), and whose widths add up to at least 1e-7 MeV and not too much. -/
structure FloatReso (r : Reso) (w d : ℝ) (fl Fc pc F p : ℝ → ℝ) (u η ε : ℝ) : Prop where
  shape : IsPseudoVoigtOf r w d
  cdf : ∀ x, r.dist.cdf r.params [x] = .ok [.fin (F x)]
  pdf : ∀ x, r.dist.pdf r.params x = .ok (.fin (p x))
  ε0 : 0 < ε
  ε1 : ε ≤ 1 / 2
  float : FloatPV fl Fc pc F p r.er u η ((2 * Real.sqrt (Real.log 2) * d + w) / ε)
  noise : u * (|r.er| + 2 * (2 * Real.sqrt (Real.log 2) * d + w) / ε) + 3 * (η + u) * (2 * Real.sqrt (Real.log 2) * d + w) ≤ 5e-11 * ε ^ 2
  wide : 1e-7 ≤ 2 * Real.sqrt (Real.log 2) * d + w
  narrow : 2 * Real.sqrt (Real.log 2) * d + w ≤ 1e20 * ε ^ 4

end Ries
