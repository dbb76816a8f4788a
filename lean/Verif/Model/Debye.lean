import Verif.Model.Num
import Mathlib.MeasureTheory.Integral.IntervalIntegral.Basic
import Mathlib.Analysis.SpecialFunctions.Exp

/-! # Model of `ries/resonance/debye_model.py` -/

namespace Ries

/-- The integrand, `ries/resonance/debye_model.py:85`: `t ** 3 * (1.0 / (np.exp(t) - 1.0) + 0.5)`. -/
noncomputable def debyeIntegrand (t : ℝ) : ℝ := t ^ 3 * (1 / (Real.exp t - 1) + 0.5)

/-- `effective_temperature_debye_approximation`, l.62-92, for one pair of temperatures. `scipy.integrate.quad` is modelled by the
exact integral. The division `T / T_D` is evaluated first; both divisions raise `ZeroDivisionError`. The vectorisation over
arrays (l.90-92) is `debyeVectorized` in `Model/DebyeArray`. -/
noncomputable def debyeTemperature (T TD : ℝ) : Except Err ℝ :=
  if TD = 0 then .error .zeroDivision
  else if T = 0 then .error .zeroDivision
  else .ok (3 * (T / TD) ^ 3 * T * ∫ t in (0 : ℝ)..(TD / T), debyeIntegrand t)

/-- `room_temperature_T_D`, l.95-181. All given numbers are whole numbers of Kelvin. -/
def roomTemperatureTD : List (String × Option ℕ) := [
  ("Al", some 390),
  ("Am", none),
  ("Sb", some 200),
  ("Ar", none),
  ("As", some 275),
  ("Ba", some 116),
  ("Be", some 1031),
  ("Bi", some 116),
  ("B", some 1362),
  ("Cd", some 221),
  ("Ca", some 230),
  ("C", some 1550),
  ("Ce", some 138),
  ("Cs", some 43),
  ("Cr", some 424),
  ("Co", some 386),
  ("Cu", some 310),
  ("Cm", none),
  ("Dy", some 158),
  ("Er", some 163),
  ("Eu", none),
  ("Fr", none),
  ("Gd", some 155),
  ("Ga", some 240),
  ("Ge", some 403),
  ("Au", some 178),
  ("Hf", some 213),
  ("Ho", some 161),
  ("H", none),
  ("In", some 129),
  ("I", none),
  ("Ir", some 228),
  ("Fe", some 373),
  ("Kr", none),
  ("La", some 135),
  ("Pb", some 87),
  ("Li", some 448),
  ("Lu", some 116),
  ("Mg", some 330),
  ("Ma", some 363),
  ("Hg", some 92),
  ("Mo", some 377),
  ("Nd", some 148),
  ("Ne", none),
  ("Np", some 163),
  ("Ni", some 345),
  ("Nb", some 260),
  ("Os", some 400),
  ("Pd", some 275),
  ("P", some 576),
  ("Pt", some 225),
  ("Pu", some 176),
  ("K", some 100),
  ("Pr", some 138),
  ("Pa", some 262),
  ("Ra", none),
  ("Re", some 275),
  ("Rh", some 350),
  ("Rb", some 59),
  ("Ru", some 415),
  ("Sm", some 184),
  ("Sc", some 476),
  ("Se", none),
  ("Si", some 692),
  ("Ag", some 221),
  ("Na", some 155),
  ("Sr", some 148),
  ("S", some 527),
  ("Ta", some 225),
  ("Tc", some 422),
  ("Te", none),
  ("Tb", some 158),
  ("Tl", some 96),
  ("Th", some 100),
  ("Tm", some 167),
  ("Sn", some 254),
  ("Ti", some 380),
  ("W", some 312),
  ("U", some 300),
  ("Va", some 390),
  ("Xe", none),
  ("Yb", none),
  ("Y", some 214),
  ("Zn", some 237),
  ("Zr", some 250)
]

/-- `room_temperature_T_D[X]` -/
def lookupTD (X : String) : Except Err (Option ℕ) :=
  match roomTemperatureTD.find? (fun kv => kv.1 = X) with
  | some kv => .ok kv.2
  | none => .error .keyError

end Ries
