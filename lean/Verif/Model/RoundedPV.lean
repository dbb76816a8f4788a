import Verif.Model.RoundedReso
import Verif.Model.PseudoVoigt

/-! # Construction and evaluation of pseudo-Voigt cross sections with rounded arithmetic

The same functions as in `Model/PseudoVoigt.lean`, with every floating-point operation rounded. -/

namespace Ries

/-- The operations of `RArith`, the number `np.log(2.0)` and the power `x ** y` for positive `x`. -/
structure PArith extends RArith where
  ln2 : ℝ
  pow : ℝ → ℝ → ℝ

namespace PArith

variable (A : PArith)

/-- `2.0 * np.sqrt(np.log(2.0))`, `ries/resonance/pseudo_voigt.py:139, 145` -/
def gaussFactor : ℝ := A.fl (2 * A.sqrt A.ln2)

/-- the sum in `get_Gamma`, `ries/resonance/pseudo_voigt.py:249-261`, of `Gamma_G = g`, `Gamma_L = l` -/
noncomputable def base (g l : ℝ) : ℝ :=
  let g2 := A.fl (g * g)
  let g4 := A.fl (g2 * g2)
  let l2 := A.fl (l * l)
  let l3 := A.fl (l2 * l)
  let l4 := A.fl (l2 * l2)
  let t1 := A.fl (g4 * g)
  let t2 := A.fl (A.fl (A.fl 2.69269 * g4) * l)
  let t3 := A.fl (A.fl (A.fl (A.fl 2.42843 * g2) * g) * l2)
  let t4 := A.fl (A.fl (A.fl 4.47163 * g2) * l3)
  let t5 := A.fl (A.fl (A.fl 0.07842 * g) * l4)
  let t6 := A.fl (l4 * l)
  A.fl (A.fl (A.fl (A.fl (A.fl (t1 + t2) + t3) + t4) + t5) + t6)

/-- `get_Gamma`, `ries/resonance/pseudo_voigt.py:249-261`; the exponent is the float `0.2` -/
noncomputable def bigGamma (g l : ℝ) : ℝ := A.pow (A.base g l) (A.fl 0.2)

/-- `get_eta`, `ries/resonance/pseudo_voigt.py:263-271` -/
noncomputable def eta (l gam : ℝ) : ℝ :=
  let l2 := A.fl (l * l)
  let l3 := A.fl (l2 * l)
  let inv := A.fl (1 / gam)
  let inv2 := A.fl (inv * inv)
  let a := A.fl (A.fl (A.fl 1.36603 * l) * inv)
  let b := A.fl (A.fl (A.fl 0.47719 * l2) * inv2)
  let c := A.fl (A.fl (A.fl (A.fl 0.11116 * l3) * inv2) * inv)
  A.fl (A.fl (a - b) + c)

/-- `PseudoVoigtDistribution(er, width, …).pdf(E)`, `ries/resonance/pseudo_voigt.py:118-201`, given the computed Doppler width `d`;
scipy returns nan unless both scales are positive -/
noncomputable def pvPdf (er w d E : ℝ) : Fl :=
  let gam := A.bigGamma (A.fl (A.gaussFactor * d)) w
  let η := A.eta w gam
  let s := A.fl (A.fl (gam / A.gaussFactor) / A.sqrt 2)
  let c := A.fl (0.5 * A.fl (0.5 * gam))
  if 0 < s ∧ 0 < c then
    .fin (A.fl (A.fl (A.fl (1 - η) * A.normPdf er s E) + A.fl (η * A.cauchyPdf er c E)))
  else .nan

/-- `PseudoVoigt(initial, intermediate, amu, T, final)(E)`, `ries/resonance/pseudo_voigt.py:280-307` and
`ries/resonance/resonance.py:258-260` -/
noncomputable def pseudoVoigt (k : PhysConst) (init inter : Level) (amu T : ℝ) (final : Option Level) (E : ℝ) : Except Err Fl := do
  let (er, ics) ← A.mkResonance k init inter final
  let w ← A.width inter
  let d ← A.dopplerWidth k amu T er
  match A.pvPdf er w d E with
  | .fin p => .ok (.fin (A.fl (ics * p)))
  | _ => .ok .nan

end PArith

end Ries
