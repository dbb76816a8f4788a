import Verif.Model.Num
import Mathlib.MeasureTheory.Integral.Bochner.Set
import Mathlib.MeasureTheory.Measure.Lebesgue.Basic
import Mathlib.Analysis.SpecialFunctions.Trigonometric.Arctan
import Mathlib.Analysis.SpecialFunctions.Pow.Real

/-! # Distribution objects as used by `ries/resonance/resonance.py`

`scipy.stats.norm`, `cauchy`, `uniform` by their documented meaning: `pdf(x, loc, scale)`,
`cdf`, `ppf` with `loc = 0, scale = 1` by default; a non-positive scale gives nan; `ppf(0)`, `ppf(1)` are the
ends of the support; a quantile outside [0,1] gives nan. -/

namespace Ries

/-- An object with methods `pdf`, `cdf`, `ppf` (each takes the parameter tuple first here).
`cdf` and `ppf` act on arrays; `ppf` may return Python's `None`, which
`PseudoVoigtDistribution.ppf` does. -/
structure Dist where
  pdf : List ℝ → ℝ → Except Err Fl
  cdf : List ℝ → List ℝ → Except Err (List Fl)
  ppf : List ℝ → List Fl → Except Err (Option (List Fl))

/-- positional parameters of a scipy location-scale family -/
def locScale : List ℝ → Except Err (ℝ × ℝ)
  | [] => .ok (0, 1)
  | [l] => .ok (l, 1)
  | [l, s] => .ok (l, s)
  | _ => .error .typeError

/-- `ppf` of a scipy distribution at one quantile, with the ends of the support given. -/
noncomputable def ppfAt (lo hi : Fl) (inner : ℝ → ℝ) : Fl → Fl
  | .fin q => if q = 0 then lo else if q = 1 then hi else if 0 < q ∧ q < 1 then .fin (inner q) else .nan
  | _ => .nan

/-- A scipy location-scale distribution from its pdf, cdf, inner ppf and support. -/
noncomputable def scipyDist (pdf cdf ppf : ℝ → ℝ → ℝ → ℝ) (lo hi : ℝ → ℝ → Fl) : Dist where
  pdf ps x := do
    let (l, s) ← locScale ps
    .ok (if 0 < s then .fin (pdf l s x) else .nan)
  cdf ps xs := do
    let (l, s) ← locScale ps
    .ok (xs.map fun x => if 0 < s then .fin (cdf l s x) else .nan)
  ppf ps qs := do
    let (l, s) ← locScale ps
    .ok (some (qs.map fun q => if 0 < s then ppfAt (lo l s) (hi l s) (ppf l s) q else .nan))

/-- density of the normal distribution -/
noncomputable def normPdf (l s x : ℝ) : ℝ :=
  Real.exp (-((x - l) / s) ^ 2 / 2) / (s * Real.sqrt (2 * Real.pi))

/-- distribution function of the normal distribution -/
noncomputable def normCdf (l s x : ℝ) : ℝ := ∫ t in Set.Iic x, normPdf l s t

open Classical in
/-- a solution of `F x = q`, if there is one -/
noncomputable def invOf (F : ℝ → ℝ) (q : ℝ) : ℝ := if h : ∃ x, F x = q then h.choose else 0

/-- density of the Cauchy distribution -/
noncomputable def cauchyPdf (l s x : ℝ) : ℝ := 1 / (Real.pi * s * (1 + ((x - l) / s) ^ 2))

/-- distribution function of the Cauchy distribution (scipy: `0.5 + 1.0/np.pi*np.arctan(x)`) -/
noncomputable def cauchyCdf (l s x : ℝ) : ℝ := 1 / 2 + 1 / Real.pi * Real.arctan ((x - l) / s)

/-- quantile function of the Cauchy distribution (scipy: `np.tan(np.pi*q - np.pi/2.0)`) -/
noncomputable def cauchyPpf (l s q : ℝ) : ℝ := l + s * Real.tan (Real.pi * q - Real.pi / 2)

/-- density of the uniform distribution on `[l, l + s]` -/
noncomputable def uniformPdf (l s x : ℝ) : ℝ := if l ≤ x ∧ x ≤ l + s then 1 / s else 0

/-- distribution function of the uniform distribution -/
noncomputable def uniformCdf (l s x : ℝ) : ℝ := max 0 (min 1 ((x - l) / s))

/-- `scipy.stats.norm` -/
noncomputable def normDist : Dist :=
  scipyDist normPdf normCdf (fun l s => invOf (normCdf l s)) (fun _ _ => .ninf) (fun _ _ => .pinf)

/-- `scipy.stats.cauchy` -/
noncomputable def cauchyDist : Dist :=
  scipyDist cauchyPdf cauchyCdf cauchyPpf (fun _ _ => .ninf) (fun _ _ => .pinf)

/-- `scipy.stats.uniform` -/
noncomputable def uniformDist : Dist :=
  scipyDist uniformPdf uniformCdf (fun l s q => l + s * q) (fun l _ => .fin l) (fun l s => .fin (l + s))

end Ries
