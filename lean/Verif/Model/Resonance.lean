import Verif.Model.State
import Verif.Model.Recoil
import Verif.Model.Dist
import Verif.Model.Grid

/-! # Model of `ries/resonance/resonance.py` and of the shapes built on it -/

namespace Ries

/-- Attributes of a `Resonance` object, `ries/resonance/resonance.py:205-239`. -/
structure Reso where
  er : ℝ
  const : ℝ
  stat : ℝ
  br : ℝ
  ics : ℝ
  dist : Dist
  params : List ℝ

/-- float division; division by zero raises -/
noncomputable def fdiv (a b : ℝ) : Except Err ℝ := if b = 0 then .error .zeroDivision else .ok (a / b)

/-- `get_statistical_factor`, l.389-393 -/
noncomputable def statFactor (init inter : Level) : Except Err ℝ :=
  fdiv ((inter.twoJ : ℝ) + 1) ((init.twoJ : ℝ) + 1)

/-- `get_final_state_branching_ratio`, l.377-387 -/
noncomputable def branchingRatio (inter : Level) (final : Option Level) : Except Err ℝ :=
  match final with
  | none => .ok 1
  | some f => do
      let pw ← inter.partialWidths
      let g ← lookup f.Jpi pw
      let w ← inter.width
      fdiv g w

/-- `get_energy_integrated_cross_section`, l.368-375: constant / E_r² · statistical factor ·
`partial_widths[initial.J_pi]` · branching ratio, evaluated left to right -/
noncomputable def integratedCS (const er stat br : ℝ) (init inter : Level) : Except Err ℝ := do
  let q ← fdiv const (er ^ 2)
  let pw ← inter.partialWidths
  let g0 ← lookup init.Jpi pw
  .ok (q * stat * g0 * br)

/-- `Resonance.__init__`, l.205-239, with the default uniform box of width 1 MeV. -/
noncomputable def mkResonance (k : PhysConst) (init inter : Level) (final : Option Level) (recoil : ℝ → ℝ) :
    Except Err Reso := do
  let er := recoil (inter.exc - init.exc)
  let const := (Real.pi * k.hbarc) ^ 2
  let stat ← statFactor init inter
  let br ← branchingRatio inter final
  let ics ← integratedCS const er stat br init inter
  .ok ⟨er, const, stat, br, ics, uniformDist, [er - 0.5, 1]⟩

/-- `BreitWigner.__init__`, `ries/resonance/breit_wigner.py:85-96`. No recoil correction is passed. -/
noncomputable def mkBreitWigner (k : PhysConst) (init inter : Level) (final : Option Level) :
    Except Err Reso := do
  let r ← mkResonance k init inter final noRecoil
  let w ← inter.width
  .ok { r with dist := cauchyDist, params := [r.er, 0.5 * w] }

/-- `Gauss.__init__`, `ries/resonance/gauss.py:48-74`. No recoil correction is passed. -/
noncomputable def mkGauss (k : PhysConst) (init inter : Level) (amu T : ℝ) (final : Option Level) :
    Except Err Reso := do
  let r ← mkResonance k init inter final noRecoil
  let d ← getDopplerWidth k amu T r.er
  .ok { r with dist := normDist, params := [r.er, d / Real.sqrt 2] }

namespace Reso

/-- `__call__(E, input_is_absolute_energy)`, l.241-260 -/
noncomputable def call (r : Reso) (E : ℝ) (absolute : Bool := true) : Except Err Fl := do
  let E' := if absolute then E else E + r.er
  let p ← r.dist.pdf r.params E'
  .ok (p.smul r.ics)

/-- Result of `coverage_interval`: the limits and the emitted warnings (the number in the first). -/
structure Cov where
  lo : Fl
  hi : Fl
  warnNegative : Option Fl
  warnInfinite : Prop

open Classical in
/-- `coverage_interval(coverage)`, l.262-307. The warning text contains
`100 * (1 - probability_distribution.cdf(0.0))`, called without the parameters. -/
noncomputable def coverageInterval (r : Reso) (c : ℝ) : Except Err Cov := do
  let g ← r.dist.ppf r.params [.fin (0.5 * (1 - c)), .fin (0.5 * (1 + c))]
  match g with
  | some [lo, hi] => do
      let warn ← if lo.isNeg then do
          let v ← r.dist.cdf [] [0]
          match v with
          | [v] => .ok (some (((v.smul (-1)).add (.fin 1)).smul 100))
          | _ => .error .typeError
        else .ok none
      .ok ⟨lo, hi, warn, hi.isInf⟩
  | _ => .error .typeError

/-- `equidistant_energy_grid(coverage_or_limits, n)`, l.309-327 -/
noncomputable def energyGrid (r : Reso) (req : Req) (n : ℤ) : Except Err (List Fl) :=
  match req with
  | .cov c => do
      let ci ← r.coverageInterval c
      linspace ci.lo ci.hi n
  | .lims a b => linspace (.fin a) (.fin b) n

/-- item assignments `grid[0] = a; grid[-1] = b`; `IndexError` on an empty array -/
def setEnds (a b : Fl) : List Fl → Except Err (List Fl)
  | [] => .error .indexError
  | [_] => .ok [b]
  | _ :: g => .ok (a :: (g.dropLast ++ [b]))

/-- `equidistant_probability_grid(coverage_or_limits, n)`, l.329-366; `none` is Python's `None`. -/
noncomputable def probGrid (r : Reso) (req : Req) (n : ℤ) : Except Err (Option (List Fl)) := do
  let lim ← match req with
    | .cov c => Except.ok [Fl.fin (0.5 * (1 - c)), Fl.fin (0.5 * (1 + c))]
    | .lims a b => r.dist.cdf r.params [a, b]
  match lim with
  | [l0, l1] => do
      let qs ← linspace l0 l1 n
      let g ← r.dist.ppf r.params qs
      match req with
      | .cov _ => .ok g
      | .lims a b =>
          match g with
          | none => .error .typeError
          | some g => (setEnds (.fin a) (.fin b) g).map some
  | _ => .error .typeError

/-- A resonance as a constituent of a weighted sum. A value that is not a finite number is outside the
real-valued model of sums (reported as `runtimeError` here); iterating over `None` is a `TypeError`. -/
noncomputable def toLeaf (r : Reso) : Leaf where
  eval E := do
    match ← r.call E with
    | .fin x => .ok x
    | _ => .error .runtimeError
  grid req n := do
    match ← r.probGrid req n with
    | some g => .ok g
    | none => .error .typeError

end Reso
end Ries
