import Verif.Model.RoundedIntegral
import Verif.Model.RoundedPVGrid

/-! # Darboux sums of a resonance with a computed distribution on its own grid -/

namespace Ries

/-- `darboux(r, r.equidistant_probability_grid(coverage_or_limits, m + 2))`, `ries/integration/darboux.py:69-82`,
`ries/resonance/resonance.py:329-366`; the resonance is called on the grid entry by entry, `ries/resonance/resonance.py:258-260`
(`self.energy_integrated_cross_section * pdf`, the product rounded). -/
noncomputable def Reso.gridIntegralF (fl : ℝ → ℝ) (order : ℕ → SumTree) (r : Reso) (req : Req) (m : ℕ) : Except Err (ℝ × ℝ) := do
  match ← r.probGridF fl req m with
  | none => .error .typeError
  | some g => darbouxCallR fl order (fun E => (r.call E).map (Fl.rounded fl)) g

end Ries
