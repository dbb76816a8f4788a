import Verif.Model.Darboux
import Verif.Model.KleinNishina

/-!
# Differential Compton cross sections on arrays of any energies, and their Darboux sums

numpy arrays do not raise `ZeroDivisionError`: impossible scattered energies give nan entries, which the sums inherit.
-/

namespace Ries

namespace Fl

/-- `np.min(..., axis=0)` of two entries: nan if one of them is nan -/
noncomputable def npMin (a b : Fl) : Fl := if a = nan ∨ b = nan then nan else min a b

/-- `np.max(..., axis=0)` of two entries: nan if one of them is nan -/
noncomputable def npMax (a b : Fl) : Fl := if a = nan ∨ b = nan then nan else max a b

/-- `np.sum` -/
def npSum (l : List Fl) : Fl := l.foldr add (fin 0)

/-- `np.abs` -/
def npAbs : Fl → Fl
  | fin x => fin |x|
  | nan => nan
  | _ => pinf

end Fl

/-- `darboux(f, x)`, `ries/integration/darboux.py:55-82`, for a function `f` that works entry by entry and may return nan or infinities -/
noncomputable def darbouxFl (f : ℝ → Fl) (x : List ℝ) : Except Err (Fl × Fl) :=
  let dx := diffs x
  let fx := x.map f
  if fx = [] then .error .valueError
  else
    let lower := Fl.npSum (List.zipWith (fun m d => m.smul d) (List.zipWith Fl.npMin fx.dropLast (fx.drop 1)) dx)
    let upper := Fl.npSum (List.zipWith (fun m d => m.smul d) (List.zipWith Fl.npMax fx.dropLast (fx.drop 1)) dx)
    .ok (lower, (upper.add (lower.smul (-1))).npAbs)

namespace KN

/-- One entry of `theta(E, Ep)`, `ries/nonresonant/klein_nishina.py:171-176`, for an array `Ep`.  For `Ep = 0` the quotient `E / Ep` is infinite
(or nan), for `E = 0` the quotient by `E` is; the argument of `np.arccos` is then infinite or nan, and the result nan. -/
noncomputable def thetaElem (k : PhysConst) (E Ep : ℝ) : Fl :=
  if Ep = 0 ∨ E = 0 then .nan else flArccos (1 - (E / Ep - 1) * k.me / E)

/-- One entry of `cs_diff_dEp(E, Ep)`, l.281-285, for an array `Ep` -/
noncomputable def dEpElem (k : PhysConst) (s : KN) (E Ep : ℝ) : Fl :=
  mapAngle (fun θ => s.dOmegaUnpol k E θ * k.me / (Ep * Ep)) (thetaElem k E Ep)

/-- One entry of `cs_diff_dEp_dphi(E, Ep, phi)`, l.263-267, for an array `Ep` -/
noncomputable def dEpdPhiElem (k : PhysConst) (s : KN) (E φ Ep : ℝ) : Fl :=
  mapAngle (fun θ => s.dOmega k E θ φ * k.me / (Ep * Ep)) (thetaElem k E Ep)

end KN

end Ries
