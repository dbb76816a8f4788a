import Verif.Model.PseudoVoigt

/-! # The quantiles of the pseudo-Voigt distribution with rounded arithmetic

The same iteration as in `Model/PseudoVoigt.lean`, with every operation of `scipy.optimize.newton` rounded; `Fc` and `pc` are the values
that `pseudo_voigt_expression(E, "cdf")` and `pseudo_voigt_expression(E, "pdf")` return in floating point. -/

namespace Ries

open Classical in
/-- body of the loop of `scipy.optimize._array_newton` for one component -/
noncomputable def NEl.stepR (fl Fc pc : ℝ → ℝ) (e : NEl) : NEl :=
  if pc e.x = 0 then { e with nz := false }
  else
    let dp := fl (fl (Fc e.x - e.q) / pc e.x)
    { e with x := fl (e.x - dp), nz := true, failed := decide (fl newtonTol ≤ |dp|) }

open Classical in
/-- the loop of `_array_newton` with `fuel` remaining iterations -/
noncomputable def newtonLoopR (fl Fc pc : ℝ → ℝ) : ℕ → List NEl → List NEl
  | 0, st => st
  | fuel + 1, st =>
    if ∀ e ∈ st, fl (Fc e.x - e.q) = 0 then st.map fun e => { e with failed := false }
    else if ∀ e ∈ st, pc e.x = 0 then st.map fun e => { e with nz := false }
    else
      let st' := st.map (NEl.stepR fl Fc pc)
      if ∀ e ∈ st', e.nz → e.failed = false then st' else newtonLoopR fl Fc pc fuel st'

/-- `scipy.optimize.newton(..., full_output=True)` on an array of start values -/
noncomputable def newtonArrayR (fl Fc pc : ℝ → ℝ) (x0 : ℝ) (qs : List ℝ) : Except Err (List ℝ × List Bool) :=
  let st := newtonLoopR fl Fc pc 50 (qs.map fun q => ⟨q, x0, true, true⟩)
  if st.any (fun e => !e.nz && e.failed) then .ok (st.map (·.x), st.map (!·.failed))
  else if st.all (·.failed) then .error .runtimeError
  else .ok (st.map (·.x), st.map (!·.failed))

open Classical in
/-- `scipy.optimize.newton` on a scalar; the last test is `np.isclose(p, p0, rtol=0, atol=tol)` -/
noncomputable def newtonScalarR (fl Fc pc : ℝ → ℝ) (q : ℝ) : ℕ → ℝ → Except Err ℝ
  | 0, _ => .error .runtimeError
  | fuel + 1, x =>
    if fl (Fc x - q) = 0 then .ok x
    else if pc x = 0 then .error .runtimeError
    else
      let x' := fl (x - fl (fl (Fc x - q) / pc x))
      if |fl (x' - x)| ≤ fl newtonTol then .ok x' else newtonScalarR fl Fc pc q fuel x'

namespace PV

/-- `ppf(quantile)` for an array, `ries/resonance/pseudo_voigt.py:203-247`; `mix` is the fallback -/
noncomputable def ppfArrayR (fl Fc pc : ℝ → ℝ) (mix : ℝ → Fl) (er : ℝ) (qs : List ℝ) : PpfResult :=
  match newtonArrayR fl Fc pc er qs with
  | .error _ => ⟨some (qs.map mix), true⟩
  | .ok (roots, conv) => if false ∈ conv then ⟨none, false⟩ else ⟨some (roots.map .fin), false⟩

/-- `ppf(quantile)` for a number, same lines -/
noncomputable def ppfScalarR (fl Fc pc : ℝ → ℝ) (mix : ℝ → Fl) (er q : ℝ) : Fl × Bool :=
  match newtonScalarR fl Fc pc q 50 er with
  | .error _ => (mix q, true)
  | .ok x => (.fin x, false)

end PV

end Ries
