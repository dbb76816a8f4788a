import Verif.Model.CrossSection
import Mathlib.Data.List.Sort
import Mathlib.Data.List.Dedup

/-! # `np.linspace`, `np.unique` and the grid methods of `ries/cross_section.py` -/

namespace Ries

/-- `np.linspace(a, b, n)` by numpy's documented algorithm: `ValueError` for negative `n`; `n` values
`i * step + a` with `step = (b - a) / (n - 1)`; the last one replaced by `b` when `n > 1`. -/
noncomputable def linspace (a b : Fl) (n : ℤ) : Except Err (List Fl) :=
  if n < 0 then .error .valueError
  else
    let delta := b.add (a.smul (-1))
    let step := delta.smul (1 / ((n : ℝ) - 1))
    match n.toNat with
    | 0 => .ok []
    | 1 => .ok [(delta.smul 0).add a]
    | m + 2 => .ok ((List.range (m + 1)).map (fun i : ℕ => (step.smul (i : ℝ)).add a) ++ [b])

/-- `CrossSection.equidistant_energy_grid(limits, n)`, `ries/cross_section.py:111-132` (also
`CrossSectionWeightedSum`, l.325-340). A number as limits is not subscriptable: `TypeError`. -/
noncomputable def energyGrid (limits : Req) (n : ℤ) : Except Err (List Fl) :=
  match limits with
  | .cov _ => .error .typeError
  | .lims a b => linspace (.fin a) (.fin b) n

/-- `Nonresonant.equidistant_probability_grid`, `ries/nonresonant/nonresonant.py:26-35`, and
`ConstantCrossSection.equidistant_probability_grid`, `ries/cross_section.py:195-200`
(`*limits` of a number is a `TypeError`). -/
noncomputable def constGrid (limits : Req) (n : ℤ) : Except Err (List Fl) :=
  match limits with
  | .cov _ => .error .typeError
  | .lims a b => linspace (.fin a) (.fin b) n

/-- `np.unique`: sorted, every value once. -/
noncomputable def npUnique (l : List Fl) : List Fl := (l.dedup).insertionSort (· ≤ ·)

namespace Obj

mutual
/-- `obj.equidistant_probability_grid(limits, n)` for leaf / constant / weighted sum,
`ries/cross_section.py:195-200, 342-363`. Numbers have no such attribute. -/
noncomputable def probGrid : Obj → Req → ℤ → Except Err (List Fl)
  | num _, _, _ => .error .attributeError
  | leaf l, r, n => l.grid r n
  | const _, r, n => constGrid r n
  | wsum rs _, r, n => do
      let gs ← probGrids rs r n
      .ok (npUnique gs)
/-- the loop l.355-362 with `chain(*grid)` -/
noncomputable def probGrids : List Obj → Req → ℤ → Except Err (List Fl)
  | [], _, _ => .ok []
  | o :: os, r, n => do
      let g ← probGrid o r n
      let gs ← probGrids os r n
      .ok (g ++ gs)
end

end Obj
end Ries
