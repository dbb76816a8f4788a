import Verif.Model.RoundedKN

/-!
# Compton kinematics of `ries/nonresonant/klein_nishina.py` with rounded arithmetic

A rounding `fl` after every operation, in the order in which Python evaluates them; the results of `np.cos`, `np.sin` and
`np.arccos` are correctly rounded.  Overflow and underflow are not modelled.
-/

namespace Ries.KN

variable (fl : ℝ → ℝ) (k : PhysConst) (s : KN)

/-- static method `Ep_over_E(E, theta)`, `klein_nishina.py:178-196` -/
noncomputable def epOverER (E θ : ℝ) : ℝ := fl (1 / fl (1 + fl (fl (E / k.me) * fl (1 - fl (Real.cos θ)))))

/-- `compton_edge(E)`, `klein_nishina.py:136-156` (`np.pi` is the rounded π) -/
noncomputable def edgeR (E : ℝ) : ℝ := fl (epOverER fl k E (fl Real.pi) * E)

/-- the argument of `np.arccos` in `theta(E, Ep)`, `klein_nishina.py:171-176` -/
noncomputable def cosR (E Ep : ℝ) : ℝ := fl (1 - fl (fl (fl (fl (E / Ep) - 1) * k.me) / E))

/-- static method `theta(E, Ep)`, `klein_nishina.py:158-176`: nan if the computed cosine is outside of [-1, 1] -/
noncomputable def thetaR (E Ep : ℝ) : Fl :=
  match flArccos (cosR fl k E Ep) with
  | .fin x => .fin (fl x)
  | x => x

/-- `cs_diff_dOmega_unpolarized(E, theta)`, `klein_nishina.py:224-248`; the attribute `scale_factor` is given -/
noncomputable def dOmegaUnpolR (scale E θ : ℝ) : ℝ :=
  let r := epOverER fl k E θ
  fl (fl (fl (fl (fl Real.pi * scale) * r) * r) * fl (fl (r + fl (1 / r)) - fl (fl (Real.sin θ) ^ 2)))

/-- `cs_diff_dEp(E, Ep)`, `klein_nishina.py:269-285`; nan stays nan -/
noncomputable def dEpR (scale E Ep : ℝ) : Fl :=
  mapAngle (fun θ => fl (fl (dOmegaUnpolR fl k scale E θ * k.me) / fl (Ep * Ep))) (thetaR fl k E Ep)

end Ries.KN
