import Verif.Model.Resonance

/-! # Construction and evaluation of Breit-Wigner and Gauss cross sections with rounded arithmetic

The same functions as in `Model/Resonance.lean`, with every floating-point operation rounded. -/

namespace Ries

/-- The operations of the floating-point arithmetic: `fl x` is the result of an elementary operation with exact result `x`,
`sq x` is `x ** 2`, `exp` and `sqrt` are `np.exp` and `np.sqrt`. -/
structure RArith where
  fl : ℝ → ℝ
  sq : ℝ → ℝ
  exp : ℝ → ℝ
  sqrt : ℝ → ℝ

namespace RArith

variable (A : RArith)

/-- float division; division by zero raises -/
noncomputable def div (a b : ℝ) : Except Err ℝ := if b = 0 then .error .zeroDivision else .ok (A.fl (a / b))

/-- built-in `sum` of floats, left to right (before Python 3.12, which compensates the rounding errors) -/
def sum (l : List ℝ) : ℝ := l.foldl (fun s x => A.fl (s + x)) 0

/-- `State.width`, `ries/constituents/state.py:113` -/
noncomputable def width (l : Level) : Except Err ℝ := do
  let pw ← l.partialWidths
  let vs ← pw.mapM (fun kv => lookup kv.1 pw)
  .ok (A.sum vs)

/-- `get_statistical_factor`, `ries/resonance/resonance.py:389-393` (integers, correctly rounded true division) -/
noncomputable def statFactor (init inter : Level) : Except Err ℝ := A.div ((inter.twoJ : ℝ) + 1) ((init.twoJ : ℝ) + 1)

/-- `get_final_state_branching_ratio`, `ries/resonance/resonance.py:377-387` -/
noncomputable def branchingRatio (inter : Level) (final : Option Level) : Except Err ℝ :=
  match final with
  | none => .ok 1
  | some f => do
      let pw ← inter.partialWidths
      let g ← lookup f.Jpi pw
      let w ← A.width inter
      A.div g w

/-- `get_energy_integrated_cross_section`, `ries/resonance/resonance.py:368-375` -/
noncomputable def integratedCS (const er stat br : ℝ) (init inter : Level) : Except Err ℝ := do
  let q ← A.div const (A.sq er)
  let pw ← inter.partialWidths
  let g0 ← lookup init.Jpi pw
  .ok (A.fl (A.fl (A.fl (q * stat) * g0) * br))

/-- `Resonance.__init__` without recoil correction, `ries/resonance/resonance.py:205-236`: the resonance energy and the
energy-integrated cross section. -/
noncomputable def mkResonance (k : PhysConst) (init inter : Level) (final : Option Level) : Except Err (ℝ × ℝ) := do
  let er := A.fl (inter.exc - init.exc)
  let const := A.sq (A.fl (A.fl Real.pi * k.hbarc))
  let stat ← A.statFactor init inter
  let br ← A.branchingRatio inter final
  let ics ← A.integratedCS const er stat br init inter
  .ok (er, ics)

/-- `scipy.stats.cauchy.pdf(E, loc, scale)`: `(1.0/np.pi/(1.0+z*z)) / scale` with `z = (E - loc) / scale` -/
noncomputable def cauchyPdf (l s E : ℝ) : ℝ :=
  let z := A.fl (A.fl (E - l) / s)
  A.fl (A.fl (A.fl (1 / A.fl Real.pi) / A.fl (1 + A.fl (z * z))) / s)

/-- `scipy.stats.norm.pdf(E, loc, scale)`: `np.exp(-z**2/2.0) / np.sqrt(2*np.pi) / scale` with `z = (E - loc) / scale` -/
noncomputable def normPdf (l s E : ℝ) : ℝ :=
  let z := A.fl (A.fl (E - l) / s)
  A.fl (A.fl (A.exp (A.fl (-A.sq z / 2)) / A.sqrt (A.fl (2 * A.fl Real.pi))) / s)

/-- `BreitWigner(initial, intermediate, final)(E)`, `ries/resonance/breit_wigner.py:85-96` and
`ries/resonance/resonance.py:258-260` -/
noncomputable def breitWigner (k : PhysConst) (init inter : Level) (final : Option Level) (E : ℝ) : Except Err Fl := do
  let (er, ics) ← A.mkResonance k init inter final
  let w ← A.width inter
  let s := A.fl (0.5 * w)
  .ok (if 0 < s then .fin (A.fl (ics * A.cauchyPdf er s E)) else .nan)

/-- `MaxwellBoltzmann(amu, T).get_doppler_width(E)`, `ries/resonance/maxwell_boltzmann.py:76-85` -/
noncomputable def dopplerWidth (k : PhysConst) (amu T E : ℝ) : Except Err ℝ := do
  let x ← A.div (A.fl (A.fl (A.fl (2 * k.kB) * A.fl 1e-6) * T)) (A.fl (amu * k.u))
  .ok (A.fl (E * A.sqrt x))

/-- `Gauss(initial, intermediate, amu, T, final)(E)`, `ries/resonance/gauss.py:64-74` and
`ries/resonance/resonance.py:258-260` -/
noncomputable def gauss (k : PhysConst) (init inter : Level) (amu T : ℝ) (final : Option Level) (E : ℝ) : Except Err Fl := do
  let (er, ics) ← A.mkResonance k init inter final
  let d ← A.dopplerWidth k amu T er
  let s := A.fl (d / A.sqrt 2)
  .ok (if 0 < s then .fin (A.fl (ics * A.normPdf er s E)) else .nan)

end RArith

end Ries
