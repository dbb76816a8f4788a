import Verif.Model.RoundedReso

/-! # Construction and evaluation of Voigt cross sections with rounded arithmetic

As `Model/RoundedReso.lean` for the Breit-Wigner and Gauss shapes. The compiled function `scipy.special.voigt_profile` is a parameter `vp`.
Not modelled here: the attributes for the pseudo-Voigt approximation, which `pdf` does not use. Overflow and underflow: C155. -/

namespace Ries

/-- `Voigt(initial, intermediate, amu, T, final)(E)`, `ries/resonance/voigt.py:128` (the call of `voigt_profile`),
`ries/resonance/pseudo_voigt.py:135-138, 148` (`sigma` and `gamma`) and `ries/resonance/resonance.py:258-260` -/
noncomputable def RArith.voigt (A : RArith) (vp : ℝ → ℝ → ℝ → ℝ) (k : PhysConst) (init inter : Level) (amu T : ℝ) (final : Option Level) (E : ℝ) :
    Except Err Fl := do
  let (er, ics) ← A.mkResonance k init inter final
  let w ← A.width inter
  let d ← A.dopplerWidth k amu T er
  let sigma := A.fl (d / A.sqrt 2)
  let gamma := A.fl (0.5 * w)
  .ok (.fin (A.fl (ics * vp (A.fl (E - er)) sigma gamma)))

end Ries
