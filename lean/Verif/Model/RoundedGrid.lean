import Mathlib.Data.Real.Basic

/-! # `np.linspace` with rounded arithmetic -/

namespace Ries

/-- The points of `np.linspace(a, b, m + 2)` as used by `equidistant_energy_grid`,
`ries/cross_section.py:132` and `:340`, `ries/resonance/resonance.py:327`, with every operation rounded by `fl`:
`step = (b - a) / (m + 1)`, then `arange * step + a`; the last point is replaced by `b`. (For `step == 0` numpy evaluates
`arange / (m + 1) * (b - a)` instead; both are 0 when the arithmetic does not underflow, which is not modelled.) -/
noncomputable def linspaceR (fl : ℝ → ℝ) (a b : ℝ) (m : ℕ) : List ℝ :=
  let delta := fl (b - a)
  let step := fl (delta / (m + 1))
  (List.range (m + 1)).map (fun i : ℕ => fl (fl (i * step) + a)) ++ [b]

end Ries
