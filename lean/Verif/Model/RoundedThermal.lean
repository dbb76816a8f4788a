import Verif.Model.RoundedReso
import Verif.Model.Darboux
import Verif.Model.Elements

/-! # Recoil, effective temperature and element mass with rounded arithmetic

The same functions as in `Model/Recoil.lean` and `Model/Elements.lean`, with every floating-point operation rounded. -/

namespace Ries

namespace RArith

variable (A : RArith)

/-- `FreeNucleusRecoil(amu)(energy_difference)`, `ries/resonance/recoil.py:114-127` -/
noncomputable def freeNucleusRecoil (k : PhysConst) (amu dE : ℝ) : Except Err ℝ := do
  let q ← A.div dE (A.fl (A.fl (2 * amu) * k.u))
  .ok (A.fl (dE * A.fl (1 + q)))

/-- `MaxwellBoltzmann.get_effective_temperature(doppler_width, amu, E)`, `ries/resonance/maxwell_boltzmann.py:111-116` -/
noncomputable def effectiveTemperature (k : PhysConst) (width amu E : ℝ) : Except Err ℝ :=
  A.div (A.fl (A.fl (A.fl (width * width) * amu) * k.u)) (A.fl (A.fl (A.fl (A.fl (E * E) * 2) * k.kB) * A.fl 1e-6))

end RArith

/-- `isotopes[iso].amu * abundances[iso]` (`amuTerm`) with a rounded product -/
def amuTermR {κ : Type} [DecidableEq κ] (fl : ℝ → ℝ) (abundances : List (κ × ℝ)) (p : κ × Option ℝ) : Except Err ℝ := do
  let ab ← dictGet p.1 abundances
  match p.2 with
  | none => .error .typeError
  | some m => .ok (fl (m * ab))

/-- `Element.amu_from_isotopic_composition`, `ries/constituents/element.py:90-104` (`amuFromComposition`), with rounded products
and additions. The order in which `np.sum` adds the terms is the parameter `t`; the sum of an empty list is `0.0`. -/
noncomputable def amuFromCompositionR {κ : Type} [DecidableEq κ] (fl : ℝ → ℝ) (t : SumTree) (abundances : List (κ × ℝ))
    (isotopes : List (κ × Option ℝ)) : Except Err ℝ := do
  let terms ← isotopes.mapM (amuTermR fl abundances)
  match terms with
  | [] => .ok 0
  | x :: xs => .ok (t.eval fl fun i => (x :: xs).getD i 0)

/-- the numbers of the composition as they are stored: `float(text)` rounds the decimal number,
`ries/constituents/natural_element_data.py:177-181` -/
def storedAbundances {κ : Type} (fl : ℝ → ℝ) (abundances : List (κ × ℝ)) : List (κ × ℝ) := abundances.map fun p => (p.1, fl p.2)

/-- likewise for the masses -/
def storedIsotopes {κ : Type} (fl : ℝ → ℝ) (isotopes : List (κ × Option ℝ)) : List (κ × Option ℝ) :=
  isotopes.map fun p => (p.1, p.2.map fl)

end Ries
