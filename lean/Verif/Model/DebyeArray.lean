import Verif.Model.Debye

/-!
# Model of the vectorised effective temperature, `ries/resonance/debye_model.py:90-92`

`np.vectorize(f)(T, T_D)` without `otypes`: `f` is first called with the first entries to find the type of the result, which fails
for empty arrays; this first call uses numpy scalars, so that it never raises; its result is thrown away. Then `f` is applied to
the entries as Python numbers with the broadcasting rules of numpy. Arguments are numbers or one-dimensional arrays of numbers here;
arrays with more dimensions are in `Model/DebyeNd`.
-/

namespace Ries

/-- a number or a one-dimensional array -/
inductive NumArg
  | scalar (x : ℝ)
  | array (xs : List ℝ)

/-- the pairs of entries according to the broadcasting rules: a number or an array of length one is repeated, otherwise the lengths
must agree -/
def broadcastPairs (xs ys : List ℝ) : Except Err (List (ℝ × ℝ)) :=
  if xs.length = ys.length then .ok (xs.zip ys)
  else match xs, ys with
    | [x], _ => .ok (ys.map fun y => (x, y))
    | _, [y] => .ok (xs.map fun x => (x, y))
    | _, _ => .error .valueError

/-- the entries of an argument -/
def NumArg.entries : NumArg → List ℝ
  | .scalar x => [x]
  | .array xs => xs

/-- `effective_temperature_debye_approximation(T, T_D)` after l.90-92. The result of two numbers is a zero-dimensional array, which
behaves like a number. -/
noncomputable def debyeVectorized (T TD : NumArg) : Except Err NumArg :=
  if T.entries.isEmpty || TD.entries.isEmpty then .error .valueError
  else do
    let ps ← broadcastPairs T.entries TD.entries
    let vs ← ps.mapM fun p => debyeTemperature p.1 p.2
    match T, TD, vs with
    | .scalar _, .scalar _, [v] => .ok (.scalar v)
    | _, _, vs => .ok (.array vs)

/-- `effective_temperature_debye_approximation(T, room_temperature_T_D[X])`, as in `notebooks/layer_target.ipynb:129, 136`: the entry is `None` for some elements, and `T / None` (l.83) raises `TypeError` -/
noncomputable def elementEffectiveTemperature (T : ℝ) (X : String) : Except Err ℝ := do
  match ← lookupTD X with
  | none => .error .typeError
  | some TD => debyeTemperature T TD

end Ries
