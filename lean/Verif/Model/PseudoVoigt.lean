import Verif.Model.Resonance
import Mathlib.Analysis.SpecialFunctions.Log.Basic

/-! # Models of `ries/resonance/pseudo_voigt.py` and `ries/resonance/voigt.py` -/

open MeasureTheory

namespace Ries

/-- Attributes of a `PseudoVoigtDistribution` that its methods use,
`ries/resonance/pseudo_voigt.py:118-154`. -/
structure PV where
  er : ℝ
  sigma : ℝ
  bigGamma : ℝ
  eta : ℝ
  gammaG : ℝ
  gammaL : ℝ
  gamma : ℝ

/-- `get_Gamma`, `ries/resonance/pseudo_voigt.py:249-261`, of `Gamma_G = g`, `Gamma_L = l`. numpy gives nan for a
negative base; the 0 here leads to nan in the scipy distributions as well. -/
noncomputable def pvGamma (g l : ℝ) : ℝ :=
  let base := g * g * (g * g) * g + 2.69269 * (g * g * (g * g)) * l + 2.42843 * (g * g) * g * (l * l)
    + 4.47163 * (g * g) * (l * l * l) + 0.07842 * g * (l * l * (l * l)) + l * l * (l * l) * l
  if base < 0 then 0 else base ^ (0.2 : ℝ)

/-- `get_eta`, `ries/resonance/pseudo_voigt.py:263-271`. -/
noncomputable def pvEta (l gam : ℝ) : ℝ :=
  let inv := 1 / gam
  1.36603 * l * inv - 0.47719 * (l * l) * (inv * inv) + 0.11116 * (l * l * l) * (inv * inv) * inv

/-- `PseudoVoigtDistribution.__init__`, `ries/resonance/pseudo_voigt.py:118-154`, given the Doppler
width `d` computed there. -/
noncomputable def mkPV (er width d : ℝ) : PV :=
  let g := 2 * Real.sqrt (Real.log 2) * d
  let gam := pvGamma g width
  { er := er, sigma := d / Real.sqrt 2, bigGamma := gam, eta := pvEta width gam
    gammaG := gam / (2 * Real.sqrt (Real.log 2)), gammaL := 0.5 * gam, gamma := 0.5 * width }

namespace PV

/-- scale of the normal component, l.172 -/
noncomputable def normScale (d : PV) : ℝ := d.gammaG / Real.sqrt 2
/-- scale of the Cauchy component, l.174 -/
noncomputable def cauchyScale (d : PV) : ℝ := 0.5 * d.gammaL

/-- `pseudo_voigt_expression(x, "pdf")`, l.156-179, where both scales are positive -/
noncomputable def pdfR (d : PV) (x : ℝ) : ℝ :=
  (1 - d.eta) * normPdf d.er d.normScale x + d.eta * cauchyPdf d.er d.cauchyScale x

/-- `pseudo_voigt_expression(x, "cdf")`, l.156-179, where both scales are positive -/
noncomputable def cdfR (d : PV) (x : ℝ) : ℝ :=
  (1 - d.eta) * normCdf d.er d.normScale x + d.eta * cauchyCdf d.er d.cauchyScale x

/-- The scipy distributions return nan unless their scale is positive. -/
def Valid (d : PV) : Prop := 0 < d.normScale ∧ 0 < d.cauchyScale

open Classical in
/-- method `pdf`, l.191-201 -/
noncomputable def pdf (d : PV) (x : ℝ) : Fl := if d.Valid then .fin (d.pdfR x) else .nan

open Classical in
/-- method `cdf`, l.179-189 -/
noncomputable def cdf (d : PV) (x : ℝ) : Fl := if d.Valid then .fin (d.cdfR x) else .nan

/-- `pseudo_voigt_expression(q, "ppf")`: linear combination of the PPFs -/
noncomputable def ppfMix (d : PV) (q : Fl) : Fl :=
  ((ppfAt .ninf .pinf (invOf (normCdf d.er d.normScale)) q).smul (1 - d.eta)).add
    ((ppfAt .ninf .pinf (cauchyPpf d.er d.cauchyScale) q).smul d.eta)

end PV

/-- One component of the array Newton iteration of `scipy.optimize.newton`: target quantile, iterate, the flags
`failures` and `nz_der`. -/
structure NEl where
  q : ℝ
  x : ℝ
  failed : Bool
  nz : Bool

/-- default `tol` of `scipy.optimize.newton` -/
noncomputable def newtonTol : ℝ := 1.48e-8

open Classical in
/-- body of the loop of `scipy.optimize._array_newton` for one component: derivative test, step, failure flag -/
noncomputable def NEl.step (F p : ℝ → ℝ) (e : NEl) : NEl :=
  if p e.x = 0 then { e with nz := false }
  else
    let dp := (F e.x - e.q) / p e.x
    { e with x := e.x - dp, nz := true, failed := decide (newtonTol ≤ |dp|) }

open Classical in
/-- the loop of `_array_newton` with `fuel` remaining iterations -/
noncomputable def newtonLoop (F p : ℝ → ℝ) : ℕ → List NEl → List NEl
  | 0, st => st
  | fuel + 1, st =>
    if ∀ e ∈ st, F e.x - e.q = 0 then st.map fun e => { e with failed := false }
    else if ∀ e ∈ st, p e.x = 0 then st.map fun e => { e with nz := false }
    else
      let st' := st.map (NEl.step F p)
      if ∀ e ∈ st', e.nz → e.failed = false then st' else newtonLoop F p fuel st'

/-- `scipy.optimize.newton(..., full_output=True)` on an array of start values, `maxiter = 50`: the roots and the
flags `converged`, or the RuntimeError "all failed to converge". -/
noncomputable def newtonArray (F p : ℝ → ℝ) (x0 : ℝ) (qs : List ℝ) : Except Err (List ℝ × List Bool) :=
  let st := newtonLoop F p 50 (qs.map fun q => ⟨q, x0, true, true⟩)
  if st.any (fun e => !e.nz && e.failed) then .ok (st.map (·.x), st.map (!·.failed))
  else if st.all (·.failed) then .error .runtimeError
  else .ok (st.map (·.x), st.map (!·.failed))

open Classical in
/-- `scipy.optimize.newton` on a scalar: `fuel` remaining iterations; returns a converged root or raises. -/
noncomputable def newtonScalar (F p : ℝ → ℝ) (q : ℝ) : ℕ → ℝ → Except Err ℝ
  | 0, _ => .error .runtimeError
  | fuel + 1, x =>
    if F x - q = 0 then .ok x
    else if p x = 0 then .error .runtimeError
    else
      let x' := x - (F x - q) / p x
      if |x' - x| ≤ newtonTol then .ok x' else newtonScalar F p q fuel x'

namespace PV

/-- Result of `ppf`: the values (`none` is Python's `None`) and whether the fallback warning was issued. -/
structure PpfResult where
  values : Option (List Fl)
  warned : Bool

open Classical in
/-- `ppf(quantile)` for an array, `ries/resonance/pseudo_voigt.py:203-247`. If the distribution is nan everywhere,
the iteration produces nan and counts as converged. Arrays of fewer than two elements, which
scipy treats by its scalar routine, follow the array routine here; see `ppfOne`. -/
noncomputable def ppfArray (d : PV) (qs : List ℝ) : PpfResult :=
  if d.Valid then
    match newtonArray d.cdfR d.pdfR d.er qs with
    | .error _ => ⟨some (qs.map fun q => d.ppfMix (.fin q)), true⟩
    | .ok (roots, conv) => if false ∈ conv then ⟨none, false⟩ else ⟨some (roots.map .fin), false⟩
  else ⟨some (qs.map fun _ => .nan), false⟩

open Classical in
/-- `ppf(quantile)` for a number, same lines. If the distribution is nan everywhere, the scalar routine finds no root, so that the
fallback is used, which is nan as well. -/
noncomputable def ppfScalar (d : PV) (q : ℝ) : Fl × Bool :=
  if d.Valid then
    match newtonScalar d.cdfR d.pdfR q 50 d.er with
    | .error _ => (d.ppfMix (.fin q), true)
    | .ok x => (.fin x, false)
  else (.nan, true)

open Classical in
/-- `ppf(quantile)` for an array with one element, same lines: scipy uses its scalar routine, which returns the pair of the root (an
array) and a `RootResults` object, and l.239 evaluates `False not in newton_result[1]`. If `RootResults` is a dictionary
(`dictLike`, newer versions of scipy), its keys are strings and the test succeeds; else it is no container: `TypeError`. -/
noncomputable def ppfOne (dictLike : Bool) (d : PV) (q : ℝ) : Except Err PpfResult :=
  if d.Valid then
    match newtonScalar d.cdfR d.pdfR q 50 d.er with
    | .error _ => .ok ⟨some [d.ppfMix (.fin q)], true⟩
    | .ok x => if dictLike then .ok ⟨some [.fin x], false⟩ else .error .typeError
  else .ok ⟨some [.nan], true⟩

/-- read off finite quantiles -/
def finList : List Fl → Option (List ℝ)
  | [] => some []
  | .fin q :: rest => (finList rest).map (q :: ·)
  | _ :: _ => none

/-- The object as a distribution. Its methods take no parameters after the argument (`TypeError`). Quantiles that are
not finite numbers do not occur in the callers and are reported as `runtimeError` here. -/
noncomputable def toDist (d : PV) : Dist where
  pdf ps x := if ps = [] then .ok (d.pdf x) else .error .typeError
  cdf ps xs := if ps = [] then .ok (xs.map d.cdf) else .error .typeError
  ppf ps qs := if ps = [] then
      match finList qs with
      | some qs => .ok (d.ppfArray qs).values
      | none => .error .runtimeError
    else .error .typeError

end PV

/-- `PseudoVoigt.__init__`, `ries/resonance/pseudo_voigt.py:274-306`. No recoil correction is passed. -/
noncomputable def mkPseudoVoigt (k : PhysConst) (init inter : Level) (amu T : ℝ) (final : Option Level) :
    Except Err Reso := do
  let r ← mkResonance k init inter final noRecoil
  let w ← inter.width
  let d ← getDopplerWidth k amu T r.er
  .ok { r with dist := (mkPV r.er w d).toDist, params := [] }

/-- `scipy.special.voigt_profile(x, sigma, gamma)` by its documentation: the convolution of a normal density and
a Cauchy density, with the degenerate cases it documents. Negative arguments do not occur. -/
noncomputable def voigtProfile (x σ γ : ℝ) : Fl :=
  if σ = 0 then
    if γ = 0 then (if x = 0 then .pinf else .fin 0) else .fin (cauchyPdf 0 γ x)
  else if γ = 0 then .fin (normPdf 0 σ x)
  else .fin (∫ t, normPdf 0 σ t * cauchyPdf 0 γ (x - t))

/-- `SemiPseudoVoigtDistribution`, `ries/resonance/voigt.py:104-126`: PDF from `voigt_profile`, CDF and PPF inherited. -/
noncomputable def PV.toSemiDist (d : PV) : Dist where
  pdf ps x := if ps = [] then .ok (voigtProfile (x - d.er) d.sigma d.gamma) else .error .typeError
  cdf := d.toDist.cdf
  ppf := d.toDist.ppf

/-- `Voigt.__init__`, `ries/resonance/voigt.py:129-168`. No recoil correction is passed. -/
noncomputable def mkVoigt (k : PhysConst) (init inter : Level) (amu T : ℝ) (final : Option Level) :
    Except Err Reso := do
  let r ← mkPseudoVoigt k init inter amu T final
  let w ← inter.width
  let d ← getDopplerWidth k amu T r.er
  .ok { r with dist := (mkPV r.er w d).toSemiDist }

/-- The concrete resonance classes with their own constructor arguments. -/
inductive Shape
  | box (recoil : ℝ → ℝ)
  | breitWigner
  | gauss (amu T : ℝ)
  | pseudoVoigt (amu T : ℝ)
  | voigt (amu T : ℝ)

/-- constructing a resonance of a given class -/
noncomputable def Shape.build (s : Shape) (k : PhysConst) (init inter : Level) (final : Option Level) : Except Err Reso :=
  match s with
  | .box R => mkResonance k init inter final R
  | .breitWigner => mkBreitWigner k init inter final
  | .gauss amu T => mkGauss k init inter amu T final
  | .pseudoVoigt amu T => mkPseudoVoigt k init inter amu T final
  | .voigt amu T => mkVoigt k init inter amu T final

end Ries
