import Verif.Model.RoundedVoigtValue

/-! # Calls with relative energies with rounded arithmetic -/

namespace Ries

/-- `BreitWigner(initial, intermediate, final)(E, input_is_absolute_energy=False)`, `ries/resonance/resonance.py:256-260` -/
noncomputable def RArith.breitWignerCentred (A : RArith) (k : PhysConst) (init inter : Level) (final : Option Level) (E : ℝ) : Except Err Fl := do
  let (er, _) ← A.mkResonance k init inter final
  A.breitWigner k init inter final (A.fl (E + er))

/-- `Gauss(initial, intermediate, amu, T, final)(E, input_is_absolute_energy=False)`, `ries/resonance/resonance.py:256-260` -/
noncomputable def RArith.gaussCentred (A : RArith) (k : PhysConst) (init inter : Level) (amu T : ℝ) (final : Option Level) (E : ℝ) :
    Except Err Fl := do
  let (er, _) ← A.mkResonance k init inter final
  A.gauss k init inter amu T final (A.fl (E + er))

/-- `Voigt(initial, intermediate, amu, T, final)(E, input_is_absolute_energy=False)`, `ries/resonance/resonance.py:256-260` -/
noncomputable def RArith.voigtCentred (A : RArith) (vp : ℝ → ℝ → ℝ → ℝ) (k : PhysConst) (init inter : Level) (amu T : ℝ) (final : Option Level)
    (E : ℝ) : Except Err Fl := do
  let (er, _) ← A.mkResonance k init inter final
  A.voigt vp k init inter amu T final (A.fl (E + er))

end Ries
