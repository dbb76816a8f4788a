import Mathlib.Analysis.SpecialFunctions.Trigonometric.Inverse
import Mathlib.Analysis.SpecialFunctions.Log.Basic
import Verif.Model.Num

/-! # Model of `ries/nonresonant/klein_nishina.py` -/

namespace Ries

/-- The entries of `scipy.constants.physical_constants` used by the package, as positive real
parameters: electron mass energy equivalent in MeV, fine-structure constant, ħc in MeV fm,
`u` in MeV, Boltzmann constant in eV/K. -/
structure PhysConst where
  me : ℝ
  alpha : ℝ
  hbarc : ℝ
  u : ℝ
  kB : ℝ
  me_pos : 0 < me
  alpha_pos : 0 < alpha
  hbarc_pos : 0 < hbarc
  u_pos : 0 < u
  kB_pos : 0 < kB

/-- An instance of `KleinNishina`: the constructor arguments, `ries/nonresonant/klein_nishina.py:102-119`. -/
structure KN where
  Z : ℝ
  mc2 : ℝ

namespace KN
variable (k : PhysConst) (s : KN)

/-- `KleinNishina(Z)` with the default electron mass, l.102-104. -/
def electron (Z : ℝ) : KN := ⟨Z, k.me⟩

/-- attribute `scale_factor`, l.114-119 -/
noncomputable def scale : ℝ := s.Z * k.alpha ^ 2 * k.hbarc ^ 2 / (s.mc2 * s.mc2)

/-- static method `Ep_over_E(E, theta)`, l.178-196; note the fixed electron mass -/
noncomputable def EpOverE (E θ : ℝ) : ℝ := 1 / (1 + E / k.me * (1 - Real.cos θ))

/-- static method `theta(E, Ep)`, l.158-176, for kinematically possible energies; `np.arccos` outside
[-1,1] would be nan (here the value of `Real.arccos`, see `thetaFl`); note the fixed electron mass -/
noncomputable def theta (E Ep : ℝ) : ℝ := Real.arccos (1 - (E / Ep - 1) * k.me / E)

/-- `compton_edge(E)`, l.136-156 -/
noncomputable def comptonEdge (E : ℝ) : ℝ := EpOverE k E Real.pi * E

/-- `cs_diff_dOmega(E, theta, phi)`, l.198-222 -/
noncomputable def dOmega (E θ φ : ℝ) : ℝ :=
  let r := EpOverE k E θ
  0.5 * s.scale k * r * r * (r + 1 / r - 2 * Real.sin θ ^ 2 * Real.cos φ ^ 2)

/-- `cs_diff_dOmega_unpolarized(E, theta)`, l.224-248 -/
noncomputable def dOmegaUnpol (E θ : ℝ) : ℝ :=
  let r := EpOverE k E θ
  Real.pi * s.scale k * r * r * (r + 1 / r - Real.sin θ ^ 2)

/-- `cs_diff_dEp_dphi(E, Ep, phi)`, l.250-267 -/
noncomputable def dEpdPhi (E Ep φ : ℝ) : ℝ := s.dOmega k E (theta k E Ep) φ * k.me / (Ep * Ep)

/-- `cs_diff_dEp(E, Ep)`, l.269-285 -/
noncomputable def dEp (E Ep : ℝ) : ℝ := s.dOmegaUnpol k E (theta k E Ep) * k.me / (Ep * Ep)

/-- `np.arccos`: nan outside [-1, 1]. -/
noncomputable def flArccos (x : ℝ) : Fl := if x ∈ Set.Icc (-1) 1 then .fin (Real.arccos x) else .nan

/-- static method `theta(E, Ep)`, l.158-176, for all energies (Python floats, so that a division by
zero raises `ZeroDivisionError`). -/
noncomputable def thetaFl (E Ep : ℝ) : Except Err Fl :=
  if Ep = 0 then .error .zeroDivision
  else if E = 0 then .error .zeroDivision
  else .ok (flArccos (1 - (E / Ep - 1) * k.me / E))

/-- apply a function of an angle: nan stays nan -/
noncomputable def mapAngle (f : ℝ → ℝ) : Fl → Fl
  | .fin x => .fin (f x)
  | _ => .nan

/-- `cs_diff_dEp_dphi(E, Ep, phi)`, l.250-267, for all energies -/
noncomputable def dEpdPhiFl (E Ep φ : ℝ) : Except Err Fl :=
  (thetaFl k E Ep).map (mapAngle fun θ => s.dOmega k E θ φ * k.me / (Ep * Ep))

/-- `cs_diff_dEp(E, Ep)`, l.269-285, for all energies -/
noncomputable def dEpFl (E Ep : ℝ) : Except Err Fl :=
  (thetaFl k E Ep).map (mapAngle fun θ => s.dOmegaUnpol k E θ * k.me / (Ep * Ep))

/-- `cs_diff_dtheta(E, theta)`, l.287-300 -/
noncomputable def dTheta (E θ : ℝ) : ℝ := s.dOmegaUnpol k E θ * Real.sin θ

/-- `cs_total(E)`, l.302-322, also `__call__`, l.121-134 -/
noncomputable def total (E : ℝ) : ℝ :=
  let x := E / s.mc2
  Real.pi * s.scale k * x ^ (-3 : ℤ) *
    ((2 * x * (2 + x * (1 + x) * (8 + x))) / ((1 + 2 * x) ^ 2)
      + ((x - 2) * x - 2) * Real.log (1 + 2 * x))

/-- `KleinNishina(Z, mc2)`, l.102-119: the scale factor is computed at construction -/
noncomputable def mk? (Z mc2 : ℝ) : Except Err KN :=
  if mc2 * mc2 = 0 then .error .zeroDivision else .ok ⟨Z, mc2⟩

/-- `cs_total(E)`, l.302-322, for any energy given as a Python float: `x ** -3` and the quotient raise
`ZeroDivisionError`, `np.log` of a negative number is nan -/
noncomputable def totalFl (E : ℝ) : Except Err Fl :=
  if s.mc2 = 0 then .error .zeroDivision
  else
    let x := E / s.mc2
    if x = 0 then .error .zeroDivision
    else if (1 + 2 * x) ^ 2 = 0 then .error .zeroDivision
    else if 1 + 2 * x < 0 then .ok .nan
    else .ok (.fin (s.total k E))

/-- one element of `cs_total(E)` for an array `E`, l.302-322: numpy does not raise; `x ** -3 = inf` times a bracket of value 0
is nan, and so is the difference of the infinities at `1 + 2 x = 0` -/
noncomputable def totalElem (E : ℝ) : Fl :=
  let x := E / s.mc2
  if x = 0 then .nan
  else if 1 + 2 * x ≤ 0 then .nan
  else .fin (s.total k E)

end KN
end Ries
