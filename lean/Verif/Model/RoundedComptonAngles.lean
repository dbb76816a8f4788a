import Verif.Model.RoundedReso
import Verif.Model.RoundedTheta

/-! # Model of the differential Klein-Nishina cross sections in floating point

`ries/nonresonant/klein_nishina.py:114-119, 158-300`, with the operations in the order of the source. Unlike in
`Model/RoundedTheta.lean`, the trigonometric functions and `** 2` need not be correctly rounded. Overflow and
underflow: C155. -/

namespace Ries

/-- The operations of `RArith` with `np.sin`, `np.cos` and `np.arccos` (for arguments in [-1,1]). -/
structure TArith extends RArith where
  sin : ℝ → ℝ
  cos : ℝ → ℝ
  arccos : ℝ → ℝ

namespace TArith

variable (T : TArith) (k : PhysConst) (s : KN)

/-- attribute `scale_factor`, l.114-119 -/
noncomputable def scale : ℝ :=
  T.fl (T.fl (T.fl (s.Z * T.sq k.alpha) * T.sq k.hbarc) / T.fl (s.mc2 * s.mc2))

/-- `Ep_over_E(E, theta)`, l.178-196 -/
noncomputable def epOverE (E θ : ℝ) : ℝ := T.fl (1 / T.fl (1 + T.fl (T.fl (E / k.me) * T.fl (1 - T.cos θ))))

/-- `cs_diff_dOmega(E, theta, phi)`, l.198-222 -/
noncomputable def dOmega (E θ φ : ℝ) : ℝ :=
  let r := T.epOverE k E θ
  T.fl (T.fl (T.fl (T.fl (0.5 * T.scale k s) * r) * r) *
    T.fl (T.fl (r + T.fl (1 / r)) - T.fl (T.fl (2 * T.sq (T.sin θ)) * T.sq (T.cos φ))))

/-- `cs_diff_dOmega_unpolarized(E, theta)`, l.224-248 -/
noncomputable def dOmegaUnpol (E θ : ℝ) : ℝ :=
  let r := T.epOverE k E θ
  T.fl (T.fl (T.fl (T.fl (T.fl Real.pi * T.scale k s) * r) * r) *
    T.fl (T.fl (r + T.fl (1 / r)) - T.sq (T.sin θ)))

/-- `cs_diff_dtheta(E, theta)`, l.287-300 -/
noncomputable def dTheta (E θ : ℝ) : ℝ := T.fl (T.dOmegaUnpol k s E θ * T.sin θ)

/-- the argument of `np.arccos` in `theta(E, Ep)`, l.158-176 -/
noncomputable def cosTheta (E Ep : ℝ) : ℝ := T.fl (1 - T.fl (T.fl (T.fl (T.fl (E / Ep) - 1) * k.me) / E))

/-- `theta(E, Ep)`, l.158-176: nan if the argument of `np.arccos` is outside of [-1,1] -/
noncomputable def theta (E Ep : ℝ) : Fl :=
  open Classical in if |T.cosTheta k E Ep| ≤ 1 then .fin (T.arccos (T.cosTheta k E Ep)) else .nan

/-- `cs_diff_dEp_dphi(E, Ep, phi)`, l.250-267: nan if the angle is -/
noncomputable def dEpdPhi (E Ep φ : ℝ) : Fl :=
  match T.theta k E Ep with
  | .fin θ => .fin (T.fl (T.fl (T.dOmega k s E θ φ * k.me) / T.fl (Ep * Ep)))
  | y => y

/-- `cs_diff_dEp(E, Ep)`, l.269-285: nan if the angle is -/
noncomputable def dEp (E Ep : ℝ) : Fl :=
  match T.theta k E Ep with
  | .fin θ => .fin (T.fl (T.fl (T.dOmegaUnpol k s E θ * k.me) / T.fl (Ep * Ep)))
  | y => y

end TArith

end Ries
