import Verif.Model.Resonance

/-!
# Attributes of resonances that are changed after construction

`Reso` has the attributes that are numbers or the distribution; a resonance object also stores the three states. The methods `get_…` read the
present attributes, `__call__` and the grids only the stored numbers and the distribution.
-/

namespace Ries

/-- a resonance object, `ries/resonance/resonance.py:222-239` -/
structure ResoObj where
  init : Level
  inter : Level
  final : Option Level
  attrs : Reso

/-- assignments: of a state, of a number, or of the result of one of the three methods that the constructor calls,
e.g. `r.statistical_factor = r.get_statistical_factor()` -/
inductive ResoEdit
  | setInit (l : Level)
  | setInter (l : Level)
  | setFinal (l : Option Level)
  | setEnergy (x : ℝ)
  | setConst (x : ℝ)
  | setStat (x : ℝ)
  | setRatio (x : ℝ)
  | setIntegral (x : ℝ)
  | refreshStat
  | refreshRatio
  | refreshIntegral

namespace ResoObj

/-- `get_statistical_factor()`, l.389-393 -/
noncomputable def getStat (o : ResoObj) : Except Err ℝ := statFactor o.init o.inter

/-- `get_final_state_branching_ratio()`, l.377-387 -/
noncomputable def getRatio (o : ResoObj) : Except Err ℝ := branchingRatio o.inter o.final

/-- `get_energy_integrated_cross_section()`, l.368-375 -/
noncomputable def getIntegral (o : ResoObj) : Except Err ℝ :=
  integratedCS o.attrs.const o.attrs.er o.attrs.stat o.attrs.br o.init o.inter

/-- one assignment -/
noncomputable def edit (o : ResoObj) : ResoEdit → Except Err ResoObj
  | .setInit l => .ok { o with init := l }
  | .setInter l => .ok { o with inter := l }
  | .setFinal l => .ok { o with final := l }
  | .setEnergy x => .ok { o with attrs := { o.attrs with er := x } }
  | .setConst x => .ok { o with attrs := { o.attrs with const := x } }
  | .setStat x => .ok { o with attrs := { o.attrs with stat := x } }
  | .setRatio x => .ok { o with attrs := { o.attrs with br := x } }
  | .setIntegral x => .ok { o with attrs := { o.attrs with ics := x } }
  | .refreshStat => do
    let x ← o.getStat
    .ok { o with attrs := { o.attrs with stat := x } }
  | .refreshRatio => do
    let x ← o.getRatio
    .ok { o with attrs := { o.attrs with br := x } }
  | .refreshIntegral => do
    let x ← o.getIntegral
    .ok { o with attrs := { o.attrs with ics := x } }

/-- several assignments; an exception ends the program -/
noncomputable def edits (o : ResoObj) : List ResoEdit → Except Err ResoObj
  | [] => .ok o
  | e :: es => do
    let o' ← o.edit e
    o'.edits es

end ResoObj

end Ries
