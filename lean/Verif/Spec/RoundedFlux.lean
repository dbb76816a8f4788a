import Verif.Model.Beam
import Verif.Model.RoundedReso
import Mathlib.Analysis.SpecialFunctions.Exp

/-! # Specification vocabulary for attenuation in floating point -/

namespace Ries

/-- An arithmetic with gradual or abrupt underflow: monotone rounding to numbers of the format with the relative error `u` or the absolute error
`ω`, whichever is larger (sum of both), and a computed exponential function that is monotone, exact at 0, not negative, and has
an error of this kind for arguments up to 0. -/
structure RArith.Underflowing (u ω : ℝ) (A : RArith) : Prop where
  fl : ∀ x, |A.fl x - x| ≤ u * |x| + ω
  mono : Monotone A.fl
  zero : A.fl 0 = 0
  one : A.fl 1 = 1
  idem : ∀ x, A.fl (A.fl x) = A.fl x
  exp : ∀ x, x ≤ 0 → |A.exp x - Real.exp x| ≤ 4 * u * Real.exp x + ω
  exp_mono : Monotone A.exp
  exp_zero : A.exp 0 = 1
  exp_nonneg : ∀ x, 0 ≤ A.exp x

/-- At the energy `E`, the cross section `f` has a value that is not negative, and `f'` returns it up to the relative error `ε`. -/
def Computes (ε E : ℝ) (f f' : Callable) : Prop :=
  ∃ v v', f E = .ok v ∧ f' E = .ok v' ∧ 0 ≤ v ∧ |v' - v| ≤ ε * v

/-- the same layers and enrichments, with computed instead of exact cross sections -/
structure LayerTarget.Computed (ε E : ℝ) (T t : LayerTarget) : Prop where
  x116 : t.x116 = T.x116
  x112 : t.x112 = T.x112
  dI : t.dI = T.dI
  dII : t.dII = T.dII
  dIII : t.dIII = T.dIII
  nr : Computes ε E T.nr t.nr
  s116 : Computes ε E T.s116 t.s116
  s112 : Computes ε E T.s112 t.s112

end Ries
