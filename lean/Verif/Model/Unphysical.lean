import Verif.Model.PseudoVoigt

/-!
# Resonances with arbitrary real masses and temperatures

`Shape.build` uses the square root of the reals, which is 0 for negative numbers.  Here the Doppler width is a floating-point value, so
that the square root of a negative number is nan, as in numpy, and evaluation follows the nan.
-/

namespace Ries

/-- `get_doppler_width(E)`, `ries/resonance/maxwell_boltzmann.py:65-85`: the division of floats raises for a vanishing mass, `np.sqrt` of
a negative number is nan -/
noncomputable def dopplerWidthFl (k : PhysConst) (amu T E : ℝ) : Except Err Fl := do
  let x ← fdiv (2 * k.kB * 1e-6 * T) (amu * k.u)
  .ok (if x < 0 then .nan else .fin (E * Real.sqrt x))

/-- `Resonance.__call__`, `ries/resonance/resonance.py:241-260`, of a newly constructed resonance of a given class:
`ries/resonance/gauss.py:48-74`, `ries/resonance/pseudo_voigt.py:118-201` and `274-314`, `ries/resonance/voigt.py:104-168`.  If the Doppler
width is nan, so are the scales (`Gamma_G`, `Gamma`, `eta`, `gamma_G`, `sigma` are computed from it); `scipy.stats.norm.pdf` and
`scipy.special.voigt_profile` return nan for a scale that is nan, the sum of the pseudo-Voigt expression is nan, and so is its product
with the integrated cross section. -/
noncomputable def Shape.value (s : Shape) (k : PhysConst) (init inter : Level) (final : Option Level) (E : ℝ) : Except Err Fl :=
  match s with
  | .box _ | .breitWigner => do
      let r ← s.build k init inter final
      r.call E
  | .gauss amu T => do
      let r ← mkResonance k init inter final noRecoil
      match ← dopplerWidthFl k amu T r.er with
      | .fin d => Reso.call { r with dist := normDist, params := [r.er, d / Real.sqrt 2] } E
      | _ => .ok .nan
  | .pseudoVoigt amu T => do
      let r ← mkResonance k init inter final noRecoil
      let w ← inter.width
      match ← dopplerWidthFl k amu T r.er with
      | .fin d => Reso.call { r with dist := (mkPV r.er w d).toDist, params := [] } E
      | _ => .ok .nan
  | .voigt amu T => do
      let r ← mkResonance k init inter final noRecoil
      let w ← inter.width
      match ← dopplerWidthFl k amu T r.er with
      | .fin d => Reso.call { r with dist := (mkPV r.er w d).toSemiDist, params := [] } E
      | _ => .ok .nan

end Ries
