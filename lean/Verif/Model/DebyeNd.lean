import Verif.Model.DebyeArray
import Verif.Model.NdArrays

/-!
# The vectorised effective temperature on arrays of any shape, `ries/resonance/debye_model.py:90-92`

As `Model/DebyeArray`, for any number of dimensions.
-/

namespace Ries
namespace Nd

/-- all indices of an array in the order in which `np.vectorize` calls the function: the last axis (written first here) runs fastest -/
def indices : List ℕ → List (List ℕ)
  | [] => [[]]
  | d :: s => (indices s).flatMap fun r => (List.range d).map fun k => k :: r

end Nd

/-- `effective_temperature_debye_approximation(T, T_D)` after l.90-92 on arrays: `ValueError` for empty arrays, which have no first entry
for finding the type of the result, and for shapes that do not fit; then one call after the other, and the first exception ends the loop. -/
noncomputable def debyeNd (T TD : Nd) : Except Err Nd :=
  if 0 ∈ T.shape ∨ 0 ∈ TD.shape then .error .valueError
  else match Nd.bshape T.shape TD.shape with
    | none => .error .valueError
    | some s => do
        let vs ← (Nd.indices s).mapM fun i => debyeTemperature (T.at' i) (TD.at' i)
        .ok ⟨s, fun i => vs.getD ((Nd.indices s).idxOf i) 0⟩

end Ries
