import Mathlib.MeasureTheory.Integral.IntervalIntegral.Basic
import Mathlib.MeasureTheory.Measure.Lebesgue.Basic
import Mathlib.Analysis.SpecialFunctions.Log.Basic
import Mathlib.Analysis.SpecialFunctions.Trigonometric.Basic

/-! # Formulas given in the documentation of the modules

Written down from the text, in the units of `README.md`: energies and masses in MeV, lengths in fm, `c = 1`, so that ħ is ħc. -/

namespace Ries.DocFormula

/-- total Compton cross section, `ries/nonresonant/klein_nishina.py:22-26` -/
noncomputable def comptonTotal (α ħ m E : ℝ) : ℝ :=
  let x := E / m
  Real.pi * α ^ 2 * ħ ^ 2 / m ^ 2 * (1 / x ^ 3) *
    (2 * x * (2 + x * (1 + x) * (8 + x)) / (1 + 2 * x) ^ 2 + ((x - 2) * x - 2) * Real.log (1 + 2 * x))

/-- energy of the scattered photon, `ries/nonresonant/klein_nishina.py:45` -/
noncomputable def comptonEnergy (m E θ : ℝ) : ℝ := E / (1 + E / m * (1 - Real.cos θ))

/-- Compton edge, `ries/nonresonant/klein_nishina.py:145` -/
noncomputable def comptonEdge (m E : ℝ) : ℝ := E / (1 + 2 * (E / m))

/-- solid-angle differential Compton cross section, `ries/nonresonant/klein_nishina.py:37`; `E'` is the energy after the scattering -/
noncomputable def comptonOmega (α ħ m E E' θ φ : ℝ) : ℝ :=
  1 / 2 * (α ^ 2 * ħ ^ 2 / m ^ 2) * (E' / E) ^ 2 * (E' / E + E / E' - 2 * Real.sin θ ^ 2 * Real.cos φ ^ 2)

/-- scattering-angle differential Compton cross section, `ries/nonresonant/klein_nishina.py:56` -/
noncomputable def comptonTheta (α ħ m E E' θ : ℝ) : ℝ :=
  Real.pi * α ^ 2 * ħ ^ 2 / m ^ 2 * (E' / E) ^ 2 * (E' / E + E / E' - Real.sin θ ^ 2) * Real.sin θ

/-- energy-differential Compton cross section, `ries/nonresonant/klein_nishina.py:71`, where θ is the angle that belongs to `E'` -/
noncomputable def comptonEp (α ħ E E' θ : ℝ) : ℝ :=
  Real.pi * α ^ 2 * ħ ^ 2 / E ^ 2 * (E' / E + E / E' - Real.sin θ ^ 2)

/-- effective temperature in the Debye model, `ries/resonance/debye_model.py:38` -/
noncomputable def debye (T TD : ℝ) : ℝ :=
  3 * T * (T / TD) * ∫ t in (0 : ℝ)..(TD / T), t ^ 3 * (1 / (Real.exp t - 1) + 1 / 2)

/-- velocity distribution, `ries/resonance/maxwell_boltzmann.py:29`, for mass `m` and thermal energy `kT` -/
noncomputable def velocity (m kT v : ℝ) : ℝ :=
  Real.sqrt (m / (2 * Real.pi * kT)) * Real.exp (-(m * v / (2 * kT)) ^ 2)

/-- normal distribution with mean value μ and standard deviation σ -/
noncomputable def normal (μ σ E : ℝ) : ℝ := Real.exp (-((E - μ) / σ) ^ 2 / 2) / (σ * Real.sqrt (2 * Real.pi))

/-- Cauchy distribution with location μ and scale γ -/
noncomputable def cauchy (μ γ E : ℝ) : ℝ := 1 / (Real.pi * γ * (1 + ((E - μ) / γ) ^ 2))

/-- pseudo-Voigt distribution, `ries/resonance/pseudo_voigt.py:24`, with mixing parameter η -/
noncomputable def pseudoVoigt (η Er σ Γ E : ℝ) : ℝ := (1 - η) * normal 0 σ E + η * cauchy Er Γ E

/-- Doppler width, `ries/resonance/voigt.py:68`, for mass `m` and thermal energy `kT` -/
noncomputable def dopplerWidth (m kT E : ℝ) : ℝ := Real.sqrt (2 * kT / m) * E

/-- recoil-corrected resonance energy, `ries/resonance/recoil.py:97` -/
noncomputable def recoil (m ΔE : ℝ) : ℝ := ΔE + ΔE ^ 2 / (2 * m)

/-- energy-integrated cross section, `ries/resonance/resonance.py:140` with l.117 -/
noncomputable def integrated (ħ E J2 J0 Γ20 : ℝ) : ℝ := (Real.pi * ħ / E) ^ 2 * ((2 * J2 + 1) / (2 * J0 + 1)) * Γ20

end Ries.DocFormula
