import Verif.Model.Xrmac

/-! # Specification vocabulary for tabulated cross sections -/

namespace Ries

/-- a table with at least one row, positive energies and positive values -/
def PosTable (t : Table) : Prop := t ≠ [] ∧ ∀ r ∈ t, 0 < r.1 ∧ 0 < r.2

/-- nondecreasing energies (equal energies mark an absorption edge) -/
def SortedTable (t : Table) : Prop := t.Pairwise fun a b => a.1 ≤ b.1

/-- the number `y` is the value of the cross section `t` at energy `E` -/
def HasValue (t : Table) (E y : ℝ) : Prop := xrmacCall t E = .ok (.fin y)

/-- multiply all values by a unit factor -/
def scaleValues (f : ℝ) (t : Table) : Table := t.map fun r => (r.1, f * r.2)

/-- multiply all energies by a unit factor -/
def scaleEnergies (f : ℝ) (t : Table) : Table := t.map fun r => (f * r.1, r.2)

end Ries
