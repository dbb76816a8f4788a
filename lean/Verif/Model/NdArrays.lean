import Verif.Model.Arrays
import Verif.Model.Beam

/-!
# Evaluation on arrays of any shape

`Model/Arrays` is about one-dimensional arrays.  Here arrays have any number of dimensions, and operators follow the broadcasting rules of
numpy: shapes are aligned at the last axis, and an axis of length 1 (or a missing one) is stretched.  Arrays are immutable values.
-/

namespace Ries

/-- A numpy array: lengths of the axes and entries.  Both the shape and an index are written with the LAST axis first, because numpy aligns
shapes at the last axis; `a[i, j]` is `a.get [j, i]`.  Only indices below the shape have a meaning.  A number has the shape `[]`. -/
structure Nd where
  shape : List ℕ
  get : List ℕ → ℝ

namespace Nd

/-- a number -/
def num (x : ℝ) : Nd := ⟨[], fun _ => x⟩

/-- a one-dimensional array -/
def vec (xs : List ℝ) : Nd := ⟨[xs.length], fun i => xs.getD (i.headD 0) 0⟩

/-- one axis of the broadcast shape -/
def bdim (a b : ℕ) : Option ℕ := if a = b then some a else if a = 1 then some b else if b = 1 then some a else none

/-- the broadcast shape of two shapes, if they fit -/
def bshape : List ℕ → List ℕ → Option (List ℕ)
  | [], t => some t
  | a :: s, [] => some (a :: s)
  | a :: s, b :: t => match bdim a b, bshape s t with
    | some d, some u => some (d :: u)
    | _, _ => none

/-- the index at which an array of a given shape is read when it is stretched: 0 on axes of length 1, missing axes are dropped -/
def align : List ℕ → List ℕ → List ℕ
  | [], _ => []
  | _ :: _, [] => []
  | d :: s, k :: i => (if d = 1 then 0 else k) :: align s i

/-- an entry of the stretched array -/
def at' (a : Nd) (i : List ℕ) : ℝ := a.get (align a.shape i)

/-- a function of numpy that works entry by entry -/
def op1 (f : ℝ → ℝ) (a : Nd) : Nd := ⟨a.shape, fun i => f (a.get i)⟩

/-- an arithmetic operator: `ValueError` if the shapes do not fit -/
def op2 (f : ℝ → ℝ → ℝ) (a b : Nd) : Except Err Nd :=
  match bshape a.shape b.shape with
  | some s => .ok ⟨s, fun i => f (a.at' i) (b.at' i)⟩
  | none => .error .valueError

/-- the statement `a += b`: a number is replaced, an array keeps its shape (`ValueError` if it cannot) -/
def iadd (a b : Nd) : Except Err Nd :=
  if a.shape = [] then op2 (· + ·) a b
  else do
    let c ← op2 (· + ·) a b
    if c.shape = a.shape then .ok c else .error .valueError

/-- `np.meshgrid(x, y)` for one-dimensional arrays: two arrays with a row for each entry of `y` and a column for each entry of `x` -/
def meshgrid (xs ys : List ℝ) : Nd × Nd :=
  (⟨[xs.length, ys.length], fun i => xs.getD (i.headD 0) 0⟩, ⟨[xs.length, ys.length], fun i => ys.getD (i.tail.headD 0) 0⟩)

/-- `y[:, None]`: a one-dimensional array as a column -/
def column (ys : List ℝ) : Nd := ⟨[1, ys.length], fun i => ys.getD (i.tail.headD 0) 0⟩

end Nd

/-- The return value of a function body that consists of operators and numpy functions of its arguments -/
inductive NExpr (n : ℕ)
  | arg (j : Fin n)
  | lit (x : ℝ)
  | fn (f : ℝ → ℝ) (e : NExpr n)
  | bin (f : ℝ → ℝ → ℝ) (a b : NExpr n)

namespace NExpr

/-- evaluation on arrays -/
def run {n : ℕ} (env : Fin n → Nd) : NExpr n → Except Err Nd
  | arg j => .ok (env j)
  | lit x => .ok (.num x)
  | fn f e => (run env e).map (Nd.op1 f)
  | bin f a b => do
      let v ← run env a
      let w ← run env b
      Nd.op2 f v w

/-- call with the values of other expressions as arguments -/
def subst {n m : ℕ} (args : Fin n → NExpr m) : NExpr n → NExpr m
  | arg j => args j
  | lit x => lit x
  | fn f e => fn f (subst args e)
  | bin f a b => bin f (subst args a) (subst args b)

/-- `Resonance.__call__(E, input_is_absolute_energy)`, `ries/resonance/resonance.py:241-260`, with the method `pdf` of the distribution as an
expression -/
def resonance (ics er : ℝ) (pdf : NExpr 1) (absolute : Bool) : NExpr 1 :=
  bin (· * ·) (lit ics) (pdf.subst ![if absolute then arg 0 else bin (· + ·) (arg 0) (lit er)])

/-- the method `pdf` of a scipy distribution with given parameters -/
def scipyPdf (f : ℝ → ℝ) : NExpr 1 := fn f (arg 0)

/-- `PseudoVoigtDistribution.pdf`, `ries/resonance/pseudo_voigt.py:156-201` -/
noncomputable def pvPdf (d : PV) : NExpr 1 :=
  bin (· + ·) (bin (· * ·) (lit (1 - d.eta)) (fn (normPdf d.er d.normScale) (arg 0)))
    (bin (· * ·) (lit d.eta) (fn (cauchyPdf d.er d.cauchyScale) (arg 0)))

/-- `SemiPseudoVoigtDistribution.pdf`, `ries/resonance/voigt.py:112-126` -/
def voigtPdf (er : ℝ) (profile : ℝ → ℝ) : NExpr 1 := fn profile (bin (· - ·) (arg 0) (lit er))

/-- `XRMAC.__call__(E)`, `ries/nonresonant/xrmac.py:131-144` -/
noncomputable def xrmac (interp : ℝ → ℝ) : NExpr 1 :=
  bin (fun a b => a ^ b) (lit 10) (fn interp (fn (Real.logb 10) (arg 0)))

variable (k : PhysConst) (s : KN)

/-- `KleinNishina.cs_total(E)`, `ries/nonresonant/klein_nishina.py:302-322` -/
noncomputable def knTotal : NExpr 1 :=
  let x : NExpr 1 := bin (· / ·) (arg 0) (lit s.mc2)
  let d : NExpr 1 := bin (· + ·) (lit 1) (bin (· * ·) (lit 2) x)
  bin (· * ·) (bin (· * ·) (lit (Real.pi * s.scale k)) (fn (fun x => x ^ (-3 : ℤ)) x))
    (bin (· + ·)
      (bin (· / ·)
        (bin (· * ·) (bin (· * ·) (lit 2) x)
          (bin (· + ·) (lit 2) (bin (· * ·) (bin (· * ·) x (bin (· + ·) (lit 1) x)) (bin (· + ·) (lit 8) x))))
        (fn (· ^ 2) d))
      (bin (· * ·) (bin (· - ·) (bin (· * ·) (bin (· - ·) x (lit 2)) x) (lit 2)) (fn Real.log d)))

/-- `Ep_over_E(E, theta)`, l.191-196 -/
noncomputable def epOverE : NExpr 2 :=
  bin (· / ·) (lit 1)
    (bin (· + ·) (lit 1) (bin (· * ·) (bin (· / ·) (arg 0) (lit k.me)) (bin (· - ·) (lit 1) (fn Real.cos (arg 1)))))

/-- `theta(E, Ep)`, l.171-176, for scattered energies that are possible (elsewhere numpy's `arccos` gives nan) -/
noncomputable def theta : NExpr 2 :=
  fn Real.arccos (bin (· - ·) (lit 1)
    (bin (· / ·) (bin (· * ·) (bin (· - ·) (bin (· / ·) (arg 0) (arg 1)) (lit 1)) (lit k.me)) (arg 0)))

/-- `cs_diff_dOmega(E, theta, phi)`, l.211-222 -/
noncomputable def dOmega : NExpr 3 :=
  let r : NExpr 3 := (epOverE k).subst ![arg 0, arg 1]
  bin (· * ·) (bin (· * ·) (bin (· * ·) (lit (0.5 * s.scale k)) r) r)
    (bin (· - ·) (bin (· + ·) r (bin (· / ·) (lit 1) r))
      (bin (· * ·) (bin (· * ·) (lit 2) (fn (· ^ 2) (fn Real.sin (arg 1)))) (fn (· ^ 2) (fn Real.cos (arg 2)))))

/-- `cs_diff_dOmega_unpolarized(E, theta)`, l.237-248 -/
noncomputable def dOmegaUnpol : NExpr 2 :=
  let r := epOverE k
  bin (· * ·) (bin (· * ·) (bin (· * ·) (lit (Real.pi * s.scale k)) r) r)
    (bin (· - ·) (bin (· + ·) r (bin (· / ·) (lit 1) r)) (fn (· ^ 2) (fn Real.sin (arg 1))))

/-- `cs_diff_dEp_dphi(E, Ep, phi)`, l.263-267 -/
noncomputable def dEpdPhi : NExpr 3 :=
  bin (· / ·) (bin (· * ·) ((dOmega k s).subst ![arg 0, (theta k).subst ![arg 0, arg 1], arg 2]) (lit k.me)) (bin (· * ·) (arg 1) (arg 1))

/-- `cs_diff_dEp(E, Ep)`, l.281-285 -/
noncomputable def dEp : NExpr 2 :=
  bin (· / ·) (bin (· * ·) ((dOmegaUnpol k s).subst ![arg 0, theta k]) (lit k.me)) (bin (· * ·) (arg 1) (arg 1))

/-- `cs_diff_dtheta(E, theta)`, l.300 -/
noncomputable def dTheta : NExpr 2 := bin (· * ·) (dOmegaUnpol k s) (fn Real.sin (arg 1))

end NExpr

/-- A cross section whose `__call__` is a function on arrays; constants and weighted sums with numbers as scale factors,
`ries/cross_section.py:174-226` -/
inductive NObj
  | leaf (p : Nd → Except Err Nd)
  | const (c : ℝ)
  | wsum (reactions : List NObj) (scales : List ℝ)

namespace NObj

mutual
/-- `obj(energy)`, `ries/cross_section.py:188-193, 304-323` -/
def call : NObj → Nd → Except Err Nd
  | leaf p, E => p E
  | const c, _ => .ok (.num c)
  | wsum rs ss, E => callLoop rs ss (.num 0) E

/-- the loop l.320-323: `cross_section += self.scale_factors[i] * reaction(energy)` -/
def callLoop : List NObj → List ℝ → Nd → Nd → Except Err Nd
  | [], _, acc, _ => .ok acc
  | _ :: _, [], _, _ => .error .indexError
  | r :: rs, s :: ss, acc, E => do
      let v ← call r E
      let p ← Nd.op2 (· * ·) (.num s) v
      let acc' ← acc.iadd p
      callLoop rs ss acc' E
end

end NObj

/-- `BeamInTarget` on arrays, `tests/test_Phi_alpha_plot.py:24-27` -/
structure NdBeam where
  sigma : Nd → Except Err Nd
  kappa : Nd → Except Err Nd

namespace NdBeam

/-- `photon_flux_density(self, Z, E)`, l.29-30: `np.exp(-(self.kappa(E) + self.sigma(E)) * Z)` -/
noncomputable def photonFluxDensity (b : NdBeam) (Z E : Nd) : Except Err Nd := do
  let k ← b.kappa E
  let s ← b.sigma E
  let t ← Nd.op2 (· + ·) k s
  let p ← Nd.op2 (· * ·) (Nd.op1 (fun x => -x) t) Z
  .ok (Nd.op1 Real.exp p)

/-- `resonance_absorption_density(self, Z, E)`, l.32-33 -/
noncomputable def resonanceAbsorptionDensity (b : NdBeam) (Z E : Nd) : Except Err Nd := do
  let s ← b.sigma E
  let p ← b.photonFluxDensity Z E
  Nd.op2 (· * ·) s p

end NdBeam
end Ries
