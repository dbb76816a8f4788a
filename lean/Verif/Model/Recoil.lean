import Verif.Model.KleinNishina
import Verif.Model.Num

/-! # Models of `ries/resonance/recoil.py` and `ries/resonance/maxwell_boltzmann.py` -/

namespace Ries

/-- `NoRecoil()` (and the abstract `Recoil`), `ries/resonance/recoil.py:44-72`: the identity. -/
def noRecoil : ℝ → ℝ := fun dE => dE

/-- `FreeNucleusRecoil(amu)(energy_difference)`, `ries/resonance/recoil.py:103-127`.
Real division: `amu = 0` (a ZeroDivisionError in Python) is excluded in the theorems. -/
noncomputable def freeNucleusRecoil (k : PhysConst) (amu : ℝ) : ℝ → ℝ :=
  fun dE => dE * (1 + dE / (2 * amu * k.u))

/-- The value of `MaxwellBoltzmann(amu, T).get_doppler_width(E)`,
`ries/resonance/maxwell_boltzmann.py:61-85`. A negative radicand (nan in numpy) is excluded in the theorems. -/
noncomputable def dopplerWidth (k : PhysConst) (amu T E : ℝ) : ℝ :=
  E * Real.sqrt (2 * k.kB * 1e-6 * T / (amu * k.u))

/-- `get_doppler_width` with the exception of the float division (l.79-85). -/
noncomputable def getDopplerWidth (k : PhysConst) (amu T E : ℝ) : Except Err ℝ :=
  if amu * k.u = 0 then .error .zeroDivision else .ok (dopplerWidth k amu T E)

/-- value of the static method `get_effective_temperature(doppler_width, amu, E)`,
`ries/resonance/maxwell_boltzmann.py:87-116`. -/
noncomputable def effectiveTemperature (k : PhysConst) (width amu E : ℝ) : ℝ :=
  (width * width * amu * k.u) / (E * E * 2 * k.kB * 1e-6)

/-- `get_effective_temperature` with the exception of the float division (l.111-116). -/
noncomputable def getEffectiveTemperature (k : PhysConst) (width amu E : ℝ) : Except Err ℝ :=
  if E * E * 2 * k.kB * 1e-6 = 0 then .error .zeroDivision else .ok (effectiveTemperature k width amu E)

end Ries
