import Verif.Model.RoundedReso
import Verif.Model.RoundedProbGrid
import Verif.Model.Darboux
import Verif.Model.PseudoVoigt

/-! # Darboux sums of a resonance on its own grid, every step in floating point

`darboux(r, r.equidistant_probability_grid((a, b), n))` as in the documentation of `ries/integration/darboux.py`, with a resonance that was
constructed in floating point. -/

namespace Ries

/-- `darboux(f, x)`, `ries/integration/darboux.py:69-82`, for a function that is evaluated entry by entry, with every operation rounded;
`order n` is the order in which `np.sum` adds `n` numbers. Entries that are not finite are not modelled (`runtimeError`). -/
noncomputable def darbouxCallR (fl : ℝ → ℝ) (order : ℕ → SumTree) (f : ℝ → Except Err Fl) (x : List Fl) : Except Err (ℝ × ℝ) :=
  match PV.finList x with
  | none => .error .runtimeError
  | some xs => do
      let ys ← xs.mapM f
      match PV.finList ys with
      | none => .error .runtimeError
      | some ys => .ok (darbouxRounded fl (order (xs.length - 1)) (fun i => xs.getD i (xs.getLastD 0)) (fun i => ys.getD i (ys.getLastD 0)))

namespace RArith

variable (A : RArith)

/-- `BreitWigner(initial, intermediate, final).equidistant_probability_grid((a, b), m + 2)`, `ries/resonance/breit_wigner.py:85-96` and
`ries/resonance/resonance.py:329-366`. (The grid uses the distribution and its parameters only.) -/
noncomputable def breitWignerGrid (k : PhysConst) (init inter : Level) (final : Option Level) (a b : ℝ) (m : ℕ) :
    Except Err (Option (List Fl)) := do
  let (er, ics) ← A.mkResonance k init inter final
  let w ← A.width inter
  Reso.probGridR A.fl ⟨er, 0, 0, 0, ics, cauchyDist, [er, A.fl (0.5 * w)]⟩ a b m

/-- `Gauss(initial, intermediate, amu, T, final).equidistant_probability_grid((a, b), m + 2)`, `ries/resonance/gauss.py:64-74` -/
noncomputable def gaussGrid (k : PhysConst) (init inter : Level) (amu T : ℝ) (final : Option Level) (a b : ℝ) (m : ℕ) :
    Except Err (Option (List Fl)) := do
  let (er, ics) ← A.mkResonance k init inter final
  let d ← A.dopplerWidth k amu T er
  Reso.probGridR A.fl ⟨er, 0, 0, 0, ics, normDist, [er, A.fl (d / A.sqrt 2)]⟩ a b m

/-- `darboux(r, r.equidistant_probability_grid((a, b), m + 2))` for a Breit-Wigner resonance `r` -/
noncomputable def breitWignerIntegral (order : ℕ → SumTree) (k : PhysConst) (init inter : Level) (final : Option Level) (a b : ℝ) (m : ℕ) :
    Except Err (ℝ × ℝ) := do
  match ← A.breitWignerGrid k init inter final a b m with
  | none => .error .typeError
  | some g => darbouxCallR A.fl order (A.breitWigner k init inter final) g

/-- the same for a Gauss resonance -/
noncomputable def gaussIntegral (order : ℕ → SumTree) (k : PhysConst) (init inter : Level) (amu T : ℝ) (final : Option Level) (a b : ℝ) (m : ℕ) :
    Except Err (ℝ × ℝ) := do
  match ← A.gaussGrid k init inter amu T final a b m with
  | none => .error .typeError
  | some g => darbouxCallR A.fl order (A.gauss k init inter amu T final) g

end RArith

end Ries
