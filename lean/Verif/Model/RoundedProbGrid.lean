import Verif.Model.Resonance
import Verif.Model.RoundedGrid

/-! # `equidistant_probability_grid` between limits, with rounded arithmetic -/

namespace Ries

/-- rounding of a value -/
def Fl.rounded (fl : ℝ → ℝ) : Fl → Fl
  | .fin x => .fin (fl x)
  | x => x

/-- A distribution object whose methods return the correctly rounded values. (scipy's are accurate to a few units in the
last place; `scipy.stats.norm.cdf(x)` is exactly 1 from `x = 8.3` on.) -/
def Dist.rounded (fl : ℝ → ℝ) (d : Dist) : Dist where
  pdf ps x := (d.pdf ps x).map (Fl.rounded fl)
  cdf ps xs := (d.cdf ps xs).map (List.map (Fl.rounded fl))
  ppf ps qs := (d.ppf ps qs).map (Option.map (List.map (Fl.rounded fl)))

/-- `equidistant_probability_grid((a, b), m + 2)`, `ries/resonance/resonance.py:329-366`, with all results rounded by `fl`.
Limits whose computed probabilities are not finite numbers are not modelled (reported as `runtimeError`). -/
noncomputable def Reso.probGridR (fl : ℝ → ℝ) (r : Reso) (a b : ℝ) (m : ℕ) : Except Err (Option (List Fl)) := do
  let d := r.dist.rounded fl
  match ← d.cdf r.params [a, b] with
  | [.fin l0, .fin l1] => do
      match ← d.ppf r.params ((linspaceR fl l0 l1 m).map .fin) with
      | none => .error .typeError
      | some g => (Reso.setEnds (.fin a) (.fin b) g).map some
  | _ => .error .runtimeError

open Classical in
/-- `coverage_interval(c)`, `ries/resonance/resonance.py:262-307`, with all results rounded by `fl`; the quantiles are
`0.5 * np.array([1.0 - coverage, 1.0 + coverage])` (l.286-289). -/
noncomputable def Reso.coverageIntervalR (fl : ℝ → ℝ) (r : Reso) (c : ℝ) : Except Err Reso.Cov := do
  let d := r.dist.rounded fl
  match ← d.ppf r.params [.fin (fl (0.5 * fl (1 - c))), .fin (fl (0.5 * fl (1 + c)))] with
  | some [lo, hi] => do
      let warn ← if lo.isNeg then do
          match ← d.cdf [] [0] with
          | [v] => .ok (some (((((v.smul (-1)).add (.fin 1)).rounded fl).smul 100).rounded fl))
          | _ => .error .typeError
        else .ok none
      .ok ⟨lo, hi, warn, hi.isInf⟩
  | _ => .error .typeError

end Ries
