import Verif.Model.Notebooks

/-!
# Model of the Monte Carlo loop of `notebooks/6Li.ipynb`, l.549-605

The random numbers are an arbitrary sequence. The one-dimensional simplex search of `scipy.optimize.minimize(method="Nelder-Mead")` is
written out, in exact arithmetic; it starts with the simplex `{x0, 1.05 x0}` (`{0, 0.00025}` if `x0 = 0`), uses the coefficients 1, 2,
1/2, 1/2 for reflection, expansion, contraction and shrinking, `xatol = fatol = tol`, and at most 200 iterations and 200 evaluations.
The argument of the function is an array with one entry in the notebook; here it is a number.
-/

namespace Ries

/-! ## Simplex search in one dimension -/

/-- the simplex (best point first), the values there, and the number of evaluations -/
structure Simplex where
  x0 : ℝ
  f0 : ℝ
  x1 : ℝ
  f1 : ℝ
  calls : ℕ

namespace Simplex

open Classical in
/-- sorting of the simplex by the values (`np.argsort` of two values keeps the order of equal ones) -/
noncomputable def sort (s : Simplex) : Simplex :=
  if s.f1 < s.f0 then ⟨s.x1, s.f1, s.x0, s.f0, s.calls⟩ else s

/-- the first simplex: the start value and a point 5 % away -/
noncomputable def start (f : ℝ → Except Err ℝ) (x : ℝ) : Except Err Simplex := do
  let y := if x = 0 then 0.00025 else (1 + 0.05) * x
  let a ← f x
  let b ← f y
  .ok (sort ⟨x, a, y, b, 2⟩)

open Classical in
/-- one iteration, without the sorting. In one dimension the centroid of all points but the worst is the best point, and the second worst
point is the best one. -/
noncomputable def step (f : ℝ → Except Err ℝ) (s : Simplex) : Except Err Simplex := do
  let shrink (calls : ℕ) : Except Err Simplex := do
    let x := s.x0 + 0.5 * (s.x1 - s.x0)
    let v ← f x
    .ok ⟨s.x0, s.f0, x, v, calls + 1⟩
  let xr := 2 * s.x0 - s.x1
  let fr ← f xr
  if fr < s.f0 then
    let xe := 3 * s.x0 - 2 * s.x1
    let fe ← f xe
    if fe < fr then .ok ⟨s.x0, s.f0, xe, fe, s.calls + 2⟩ else .ok ⟨s.x0, s.f0, xr, fr, s.calls + 2⟩
  else if fr < s.f1 then
    let xc := 1.5 * s.x0 - 0.5 * s.x1
    let fc ← f xc
    if fc ≤ fr then .ok ⟨s.x0, s.f0, xc, fc, s.calls + 2⟩ else shrink (s.calls + 2)
  else
    let xc := 0.5 * s.x0 + 0.5 * s.x1
    let fc ← f xc
    if fc < s.f1 then .ok ⟨s.x0, s.f0, xc, fc, s.calls + 2⟩ else shrink (s.calls + 2)

/-- the criterion to stop: both the points and the values are closer than the tolerance -/
def Small (tol : ℝ) (s : Simplex) : Prop := |s.x1 - s.x0| ≤ tol ∧ |s.f0 - s.f1| ≤ tol

open Classical in
/-- the loop, with the number of iterations that are left -/
noncomputable def loop (f : ℝ → Except Err ℝ) (tol : ℝ) : ℕ → Simplex → Except Err Simplex
  | 0, s => .ok s
  | n + 1, s =>
    if 200 ≤ s.calls then .ok s
    else if s.Small tol then .ok s
    else do
      let t ← step f s
      loop f tol n t.sort

end Simplex

/-- `minimize(f, x0=x, method="Nelder-Mead", tol=tol).x[0]` -/
noncomputable def nelderMead (f : ℝ → Except Err ℝ) (x tol : ℝ) : Except Err ℝ := do
  let s ← Simplex.start f x
  let t ← s.loop f tol 199
  .ok t.x0

/-! ## The loop over the samples -/

/-- The random numbers of one pass, `notebooks/6Li.ipynb:568-572`. -/
structure Draw where
  absorberMass : ℝ
  scattererMass : ℝ
  diameter : ℝ
  enrichment : ℝ
  rExp : ℝ

/-- `current_percentage`, `Gamma_values`, `R_exp_values`, l.554-558, and the output: the printed fractions (l.565, without the
seconds) and the numbers in the warnings (l.605). -/
structure MCState where
  current : ℝ
  gammas : List ℝ
  rExps : List ℝ
  printed : List ℝ
  warned : List (ℝ × ℝ × ℝ)

/-- `R_exp_tolerance`, l.551 -/
noncomputable def rExpTolerance : ℝ := 1e-4

/-- `update_percentage`, l.553 -/
noncomputable def updatePercentage : ℝ := 0.01

/-- `np.isclose(a, b, atol=atol)`: the relative tolerance keeps its default value -/
def isClose (a b atol : ℝ) : Prop := |a - b| ≤ atol + 1e-5 * |b|

/-- `values[n]` for `n ≥ 0` -/
def listItem (l : List ℝ) (n : ℕ) : Except Err ℝ :=
  match l[n]? with
  | some v => .ok v
  | none => .error .indexError

open Classical in
/-- the progress message, l.563-565 -/
noncomputable def mcProgress (total n : ℕ) (s : MCState) : MCState :=
  if (n : ℝ) / total > s.current + updatePercentage then
    { s with current := s.current + updatePercentage, printed := s.printed ++ [s.current + updatePercentage] }
  else s

open Classical in
/-- One pass of the loop, l.561-605. The first argument is the function `R` of the notebook. -/
noncomputable def mcPass (R : Draw → ℝ → Except Err ℝ) (total n : ℕ) (d : Draw) (s : MCState) : Except Err MCState := do
  let s := mcProgress total n s
  let rExps := s.rExps ++ [d.rExp]
  let target ← listItem rExps n
  let g ← nelderMead (fun Γ => do
    let r ← R d Γ
    .ok |r - target|) 8.17e-6 (0.1 * rExpTolerance)
  let gammas := s.gammas ++ [g]
  let gn ← listItem gammas n
  let test ← R d gn
  if isClose test target rExpTolerance then .ok { s with gammas := gammas, rExps := rExps }
  else .ok { s with gammas := gammas, rExps := rExps, warned := s.warned ++ [(target, gn, test)] }

/-- the first `n` passes of a run with `total` samples -/
noncomputable def mcPasses (R : Draw → ℝ → Except Err ℝ) (draws : ℕ → Draw) (total : ℕ) : ℕ → Except Err MCState
  | 0 => .ok ⟨0, [], [], [], []⟩
  | n + 1 => do
    let s ← mcPasses R draws total n
    mcPass R total n (draws n) s

/-- the whole loop with `n_random = total` -/
noncomputable def monteCarlo (R : Draw → ℝ → Except Err ℝ) (draws : ℕ → Draw) (total : ℕ) : Except Err MCState :=
  mcPasses R draws total total

/-- the function `R` as it is called in the loop, l.578-585, 595-602, with its default coverage (l.444) -/
noncomputable def drawR (k : PhysConst) (D : Li6Data) (d : Draw) (Γ : ℝ) : Except Err ℝ :=
  li6R k D Γ d.absorberMass d.scattererMass d.diameter d.enrichment 411 0.999

end Ries
