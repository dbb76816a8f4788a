import Verif.Model.KleinNishina

/-! # The documented constant -/

namespace Ries

/-- "`ries` uses `ℏc = 197.3269804 MeV` fm", `README.md:21` -/
noncomputable def documentedHbarc : ℝ := 197.3269804

/-- the total cross section of Compton scattering (Klein and Nishina) for `Z` free particles of mass energy `m`, fine-structure
constant `α`, and `ħc` -/
noncomputable def kleinNishinaFormula (α hbarc Z m E : ℝ) : ℝ :=
  2 * Real.pi * Z * (α * hbarc / m) ^ 2 *
    ((1 + E / m) / (E / m) ^ 2 * (2 * (1 + E / m) / (1 + 2 * (E / m)) - Real.log (1 + 2 * (E / m)) / (E / m))
      + Real.log (1 + 2 * (E / m)) / (2 * (E / m)) - (1 + 3 * (E / m)) / (1 + 2 * (E / m)) ^ 2)

end Ries
