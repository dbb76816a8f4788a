import Verif.Model.Arrays

/-!
# Kinematics and differential cross sections of `ries/nonresonant/klein_nishina.py` on arrays

The functions of `Model/KleinNishina` are written for numbers.  Here each of their arguments may be a number or an array (or a list),
and every operator works on the store of `Model/Arrays`; Python evaluates operands from left to right.
-/

namespace Ries.Arr

open Ries

/-- an operator between two expressions: the left one is evaluated first -/
def lift2 (f : ℝ → ℝ → ℝ) (m n : M AVal) : M AVal := do
  let v ← m
  let w ← n
  op2 f v w

/-- a numpy function of an expression -/
def lift1 (f : ℝ → ℝ) (m : M AVal) : M AVal := do
  let v ← m
  op1 f v

/-- a literal or an attribute that is a number -/
def lit (x : ℝ) : M AVal := pure (.num x)

variable (k : PhysConst) (s : KN)

/-- `Ep_over_E(E, theta)`, `ries/nonresonant/klein_nishina.py:191-196` -/
noncomputable def epOverEA (E θ : AVal) : M AVal :=
  lift2 (· / ·) (lit 1)
    (lift2 (· + ·) (lit 1)
      (lift2 (· * ·) (lift2 (· / ·) (pure E) (lit k.me)) (lift2 (· - ·) (lit 1) (lift1 Real.cos (pure θ)))))

/-- `compton_edge(E)`, l.156 -/
noncomputable def comptonEdgeA (E : AVal) : M AVal := lift2 (· * ·) (epOverEA k E (.num Real.pi)) (pure E)

/-- `theta(E, Ep)`, l.171-176, for scattered energies that are possible (elsewhere numpy's `arccos` gives nan) -/
noncomputable def thetaA (E Ep : AVal) : M AVal :=
  lift1 Real.arccos
    (lift2 (· - ·) (lit 1)
      (lift2 (· / ·)
        (lift2 (· * ·) (lift2 (· - ·) (lift2 (· / ·) (pure E) (pure Ep)) (lit 1)) (lit k.me))
        (pure E)))

/-- `cs_diff_dOmega(E, theta, phi)`, l.211-222; the leading product of numbers is `0.5 * self.scale_factor` -/
noncomputable def dOmegaA (E θ φ : AVal) : M AVal := do
  let r ← epOverEA k E θ
  lift2 (· * ·) (lift2 (· * ·) (lift2 (· * ·) (lit (0.5 * s.scale k)) (pure r)) (pure r))
    (lift2 (· - ·) (lift2 (· + ·) (pure r) (lift2 (· / ·) (lit 1) (pure r)))
      (lift2 (· * ·) (lift2 (· * ·) (lit 2) (lift1 (· ^ 2) (lift1 Real.sin (pure θ)))) (lift1 (· ^ 2) (lift1 Real.cos (pure φ)))))

/-- `cs_diff_dOmega_unpolarized(E, theta)`, l.237-248 -/
noncomputable def dOmegaUnpolA (E θ : AVal) : M AVal := do
  let r ← epOverEA k E θ
  lift2 (· * ·) (lift2 (· * ·) (lift2 (· * ·) (lit (Real.pi * s.scale k)) (pure r)) (pure r))
    (lift2 (· - ·) (lift2 (· + ·) (pure r) (lift2 (· / ·) (lit 1) (pure r))) (lift1 (· ^ 2) (lift1 Real.sin (pure θ))))

/-- `cs_diff_dEp_dphi(E, Ep, phi)`, l.263-267 -/
noncomputable def dEpdPhiA (E Ep φ : AVal) : M AVal :=
  lift2 (· / ·)
    (lift2 (· * ·) (do let θ ← thetaA k E Ep; dOmegaA k s E θ φ) (lit k.me))
    (lift2 (· * ·) (pure Ep) (pure Ep))

/-- `cs_diff_dEp(E, Ep)`, l.281-285 -/
noncomputable def dEpA (E Ep : AVal) : M AVal :=
  lift2 (· / ·)
    (lift2 (· * ·) (do let θ ← thetaA k E Ep; dOmegaUnpolA k s E θ) (lit k.me))
    (lift2 (· * ·) (pure Ep) (pure Ep))

/-- `cs_diff_dtheta(E, theta)`, l.300 -/
noncomputable def dThetaA (E θ : AVal) : M AVal :=
  lift2 (· * ·) (dOmegaUnpolA k s E θ) (lift1 Real.sin (pure θ))

end Ries.Arr
