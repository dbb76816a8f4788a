import Verif.Model.Resonance
import Verif.Spec.Resonance
import Mathlib.MeasureTheory.Integral.IntervalIntegral.Basic

/-! # What the documentation asks of a user-defined probability distribution

`ries/resonance/resonance.py:110-111`: "Any user-defined probability distribution should be derived from
`scipy.stats.rv_continuous`, or at least provide the methods `pdf`, `cdf`, and `ppf`". -/

open MeasureTheory Set

namespace Ries

/-- `d` with the parameters `ps` is a continuous distribution: `pdf` is a density `p`, `cdf` its integral from
minus infinity, and `ppf` a right inverse of `cdf` between 0 and 1 (at 0 and 1 it returns anything, for example the
ends of the support). The density may vanish, so that distributions on the positive energies are included. -/
structure IsContinuousDist (d : Dist) (ps : List ℝ) (p : ℝ → ℝ) (Q : ℝ → Fl) : Prop where
  nonneg : ∀ E, 0 ≤ p E
  integrable : Integrable p
  total : ∫ E, p E = 1
  pdf : ∀ E, d.pdf ps E = .ok (.fin (p E))
  cdf : ∀ xs, d.cdf ps xs = .ok (xs.map fun x => .fin (∫ E in Iic x, p E))
  ppf : ∀ qs : List ℝ, (∀ q ∈ qs, 0 ≤ q ∧ q ≤ 1) → d.ppf ps (qs.map .fin) = .ok (some (qs.map Q))
  inv : ∀ q, 0 < q → q < 1 → ∃ x, Q q = .fin x ∧ ∫ E in Iic x, p E = q

/-- `resonance.probability_distribution = d; resonance.probability_distribution_parameters = ps` -/
def Reso.assign (r : Reso) (d : Dist) (ps : List ℝ) : Reso := { r with dist := d, params := ps }

end Ries
