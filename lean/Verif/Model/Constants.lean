import Verif.Model.Resonance

/-!
# Where the physical constants come from

`scipy.constants.physical_constants` is a dictionary into which the CODATA tables of all editions known to the installed scipy are
merged, newer ones last. Names of earlier editions therefore stay available with their last published values. The tables here contain
only the names that `ries` uses. The numbers are those of the CODATA publications (scipy is not part of the repository).
-/

namespace Ries

/-- editions of the CODATA table; scipy up to 1.3 knows 2014, later versions 2018, current ones 2022 -/
inductive Edition
  | e2014 | e2018 | e2022
  deriving DecidableEq

/-- the names used by `ries` in the edition of 2014 -/
noncomputable def codata2014 : List (String × ℝ) :=
  [("electron mass energy equivalent in MeV", 0.5109989461), ("fine-structure constant", 7.2973525664e-3),
   ("Planck constant over 2 pi times c in MeV fm", 197.3269788), ("atomic mass constant energy equivalent in MeV", 931.4940954),
   ("Boltzmann constant in eV/K", 8.6173303e-5)]

/-- the same for 2018, where the Planck constant over 2 pi was renamed -/
noncomputable def codata2018 : List (String × ℝ) :=
  [("electron mass energy equivalent in MeV", 0.51099895), ("fine-structure constant", 7.2973525693e-3),
   ("reduced Planck constant times c in MeV fm", 197.3269804), ("atomic mass constant energy equivalent in MeV", 931.49410242),
   ("Boltzmann constant in eV/K", 8.617333262e-5)]

/-- the same for 2022 -/
noncomputable def codata2022 : List (String × ℝ) :=
  [("electron mass energy equivalent in MeV", 0.51099895069), ("fine-structure constant", 7.2973525643e-3),
   ("reduced Planck constant times c in MeV fm", 197.3269804), ("atomic mass constant energy equivalent in MeV", 931.49410372),
   ("Boltzmann constant in eV/K", 8.617333262e-5)]

/-- `scipy.constants.physical_constants` of a scipy that knows the editions up to the given one: the newest entry counts -/
noncomputable def physicalConstants : Edition → List (String × ℝ)
  | .e2014 => codata2014
  | .e2018 => codata2018 ++ codata2014
  | .e2022 => codata2022 ++ (codata2018 ++ codata2014)

/-- the constants, if positive (they are in all editions; anything else is reported as `runtimeError`) -/
noncomputable def mkConst (me alpha hbarc u kB : ℝ) : Except Err PhysConst :=
  if h : 0 < me ∧ 0 < alpha ∧ 0 < hbarc ∧ 0 < u ∧ 0 < kB then
    .ok ⟨me, alpha, hbarc, u, kB, h.1, h.2.1, h.2.2.1, h.2.2.2.1, h.2.2.2.2⟩
  else .error .runtimeError

/-- the constants that `klein_nishina.py` looks up (l.103, 116, 117, 174, 194, 265, 283; the others are not used there) -/
noncomputable def constKN (e : Edition) : Except Err PhysConst := do
  let me ← lookup "electron mass energy equivalent in MeV" (physicalConstants e)
  let alpha ← lookup "fine-structure constant" (physicalConstants e)
  let hbarc ← lookup "Planck constant over 2 pi times c in MeV fm" (physicalConstants e)
  mkConst me alpha hbarc 1 1


/-- `KleinNishina(Z, mc2)(E)` in an environment with the given edition, `klein_nishina.py:102-134` -/
noncomputable def knTotalAt (e : Edition) (Z mc2 E : ℝ) : Except Err Fl := do
  let k ← constKN e
  let s ← KN.mk? Z mc2
  s.totalFl k E

/-- `Resonance(initial, intermediate, final)`, `resonance.py:205-239`, in an environment with the given edition. (If the dictionary
lacks the constant, the `KeyError` is raised before the states are used, except for their excitation energies.) -/
noncomputable def mkResonanceAt (e : Edition) (init inter : Level) (final : Option Level) (recoil : ℝ → ℝ) : Except Err Reso := do
  let hbarc ← lookup "reduced Planck constant times c in MeV fm" (physicalConstants e)
  let k ← mkConst 1 1 hbarc 1 1
  mkResonance k init inter final recoil

end Ries
