import Verif.Model.RoundedProbGrid
import Verif.Model.RoundedNewton

/-! # Coverage intervals and grids of equal probability of pseudo-Voigt resonances, with rounded arithmetic -/

namespace Ries

/-- `PseudoVoigtDistribution`, `ries/resonance/pseudo_voigt.py:156-247`, in floating point: `Fc`, `pc` are the computed distribution
function and density (l.156-201), `mix` the computed fallback (l.242-247), `er` the centre. As in `PV.toDist`, the methods take no
parameters after the argument, and quantiles that are not finite do not occur in the callers. -/
noncomputable def PV.computed (fl Fc pc : ℝ → ℝ) (mix : ℝ → Fl) (er : ℝ) : Dist where
  pdf ps x := if ps = [] then .ok (.fin (pc x)) else .error .typeError
  cdf ps xs := if ps = [] then .ok (xs.map fun x => .fin (Fc x)) else .error .typeError
  ppf ps qs := if ps = [] then
      match PV.finList qs with
      | some qs => .ok (PV.ppfArrayR fl Fc pc mix er qs).values
      | none => .error .runtimeError
    else .error .typeError

/-- the resonance with the computed distribution -/
noncomputable def Reso.computed (r : Reso) (fl Fc pc : ℝ → ℝ) (mix : ℝ → Fl) : Reso :=
  { r with dist := PV.computed fl Fc pc mix r.er, params := [] }

open Classical in
/-- `coverage_interval(c)`, `ries/resonance/resonance.py:262-307`, with every operation outside the distribution object rounded
by `fl`; the quantiles are `0.5 * np.array([1.0 - coverage, 1.0 + coverage])` (l.289-292). -/
noncomputable def Reso.coverageIntervalF (fl : ℝ → ℝ) (r : Reso) (c : ℝ) : Except Err Reso.Cov := do
  match ← r.dist.ppf r.params [.fin (fl (0.5 * fl (1 - c))), .fin (fl (0.5 * fl (1 + c)))] with
  | some [lo, hi] => do
      let warn ← if lo.isNeg then do
          match ← r.dist.cdf [] [0] with
          | [v] => .ok (some (((((v.smul (-1)).add (.fin 1)).rounded fl).smul 100).rounded fl))
          | _ => .error .typeError
        else .ok none
      .ok ⟨lo, hi, warn, hi.isInf⟩
  | _ => .error .typeError

/-- `equidistant_probability_grid(coverage_or_limits, m + 2)`, `ries/resonance/resonance.py:329-366`, with every operation outside
the distribution object rounded by `fl`. Limits whose computed probabilities are not finite numbers are not modelled (reported as
`runtimeError`). -/
noncomputable def Reso.probGridF (fl : ℝ → ℝ) (r : Reso) : Req → ℕ → Except Err (Option (List Fl))
  | .cov c, m => r.dist.ppf r.params ((linspaceR fl (fl (0.5 * fl (1 - c))) (fl (0.5 * fl (1 + c))) m).map .fin)
  | .lims a b, m => do
    match ← r.dist.cdf r.params [a, b] with
    | [.fin l0, .fin l1] => do
        match ← r.dist.ppf r.params ((linspaceR fl l0 l1 m).map .fin) with
        | none => .error .typeError
        | some g => (Reso.setEnds (.fin a) (.fin b) g).map some
    | _ => .error .runtimeError

end Ries
