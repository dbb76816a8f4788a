import Verif.Model.KleinNishina

/-!
# The total cross section of `ries/nonresonant/klein_nishina.py` with rounded arithmetic

The expressions of `KN.scale` and `KN.total` with a rounding `fl` after every operation, in the order in which Python
evaluates them.  `lg` stands for the logarithm and `cb` for the power `x ** -3` as they are computed by the run-time
library.  Overflow and underflow are not modelled.
-/

namespace Ries.KN

/-- The arithmetic of the machine. -/
structure Arith where
  /-- rounding of the result of `+`, `-`, `*`, `/` and of the power 2 (which is computed as a product) -/
  fl : ℝ → ℝ
  /-- `np.log` -/
  lg : ℝ → ℝ
  /-- `x ** -3` -/
  cb : ℝ → ℝ

variable (a : Arith) (k : PhysConst) (s : KN)

/-- attribute `scale_factor`, `klein_nishina.py:114-119` -/
noncomputable def scaleR : ℝ :=
  a.fl (a.fl (a.fl (s.Z * a.fl (k.alpha ^ 2)) * a.fl (k.hbarc ^ 2)) / a.fl (s.mc2 * s.mc2))

/-- first term in the bracket of `cs_total`, `klein_nishina.py:318` -/
noncomputable def termA (x : ℝ) : ℝ :=
  a.fl (a.fl (a.fl (2 * x) * a.fl (2 + a.fl (a.fl (x * a.fl (1 + x)) * a.fl (8 + x)))) /
    a.fl (a.fl (1 + a.fl (2 * x)) ^ 2))

/-- second term in the bracket of `cs_total`, `klein_nishina.py:319` -/
noncomputable def termB (x : ℝ) : ℝ :=
  a.fl (a.fl (a.fl (a.fl (x - 2) * x) - 2) * a.lg (a.fl (1 + a.fl (2 * x))))

/-- `cs_total(E)`, `klein_nishina.py:302-322` -/
noncomputable def totalR (E : ℝ) : ℝ :=
  let x := a.fl (E / s.mc2)
  a.fl (a.fl (a.fl (a.fl Real.pi * scaleR a k s) * a.cb x) * a.fl (termA a x + termB a x))

/-- exact arithmetic -/
noncomputable def exactArith : Arith := ⟨id, Real.log, fun x => x ^ (-3 : ℤ)⟩

end Ries.KN
