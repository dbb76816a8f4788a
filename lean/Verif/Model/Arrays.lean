import Verif.Model.PseudoVoigt
import Verif.Model.KleinNishina
import Verif.Model.Darboux
import Mathlib.Analysis.SpecialFunctions.Log.Base

/-!
# Evaluation on arrays and lists, with the identity of the arrays

`Obj.callArr` (`Model/CrossSection`) treats arrays as immutable values.  Here numpy arrays and Python lists of numbers live in a
store, operators allocate new arrays, and the augmented assignment `+=` writes into an existing one, as in numpy.  So it can be
expressed which arrays a call changes, whether a result shares memory with an argument, and which classes accept a plain list where
the documentation says "array_like".
-/

namespace Ries.Arr

open Ries

/-- An object in the store: a one-dimensional numpy array, or a Python list of numbers. -/
inductive Cell
  | array (xs : List ℝ)
  | list (xs : List ℝ)

/-- The store; an address is an index. -/
abbrev Store := List Cell

/-- A Python value: a number or a reference to an object of the store. -/
inductive AVal
  | num (x : ℝ)
  | ref (a : ℕ)

/-- Code that reads and writes the store and may raise; the store survives an exception. -/
abbrev M (α : Type) := Store → Except Err α × Store

instance : Monad M where
  pure x := fun h => (.ok x, h)
  bind m f := fun h => match m h with
    | (.ok x, h') => f x h'
    | (.error e, h') => (.error e, h')

/-- `raise` -/
def throw {α : Type} (e : Err) : M α := fun h => (.error e, h)

/-- create an object -/
def alloc (c : Cell) : M AVal := fun h => (.ok (.ref h.length), h ++ [c])

/-- look at an object -/
def getCell (a : ℕ) : M Cell := fun h => match h[a]? with
  | some c => (.ok c, h)
  | none => (.error .attributeError, h)

/-- overwrite the entries of an array, in place -/
def write (a : ℕ) (xs : List ℝ) : M Unit := fun h => (.ok (), h.set a (.array xs))

/-- numpy broadcasting of two one-dimensional arrays: equal lengths, or one of length 1 that is stretched -/
def zipB (f : ℝ → ℝ → ℝ) (xs ys : List ℝ) : Except Err (List ℝ) :=
  if xs.length = ys.length then .ok (List.zipWith f xs ys)
  else match xs, ys with
    | [x], ys => .ok (ys.map (f x))
    | xs, [y] => .ok (xs.map (f · y))
    | _, _ => .error .valueError

/-- an exception or a new array -/
def allocE : Except Err (List ℝ) → M AVal
  | .ok xs => alloc (.array xs)
  | .error e => throw e

/-- A binary arithmetic operator (`+ - * / **`) on numbers, arrays and lists: a new array as soon as an array takes part.  A list
combined with a float is a `TypeError`; so is a list combined with a list (for the other operators than `+`, which does not occur
in the code between two lists). -/
def op2 (f : ℝ → ℝ → ℝ) : AVal → AVal → M AVal
  | .num x, .num y => pure (.num (f x y))
  | .num x, .ref b => do
      match ← getCell b with
      | .array ys => alloc (.array (ys.map (f x)))
      | .list _ => throw .typeError
  | .ref a, .num y => do
      match ← getCell a with
      | .array xs => alloc (.array (xs.map (f · y)))
      | .list _ => throw .typeError
  | .ref a, .ref b => do
      match ← getCell a, ← getCell b with
      | .array xs, .array ys => allocE (zipB f xs ys)
      | .array xs, .list ys => allocE (zipB f xs ys)
      | .list xs, .array ys => allocE (zipB f xs ys)
      | .list _, .list _ => throw .typeError

/-- A vectorised function of numpy or scipy (`np.log10`, `norm.pdf`, `interp1d`, ...): numbers give numbers, arrays and lists give a
new array. -/
def op1 (f : ℝ → ℝ) : AVal → M AVal
  | .num x => pure (.num (f x))
  | .ref a => do
      match ← getCell a with
      | .array xs => alloc (.array (xs.map f))
      | .list xs => alloc (.array (xs.map f))

/-- The statement `v += w`, returning the new value of the variable: for a number like `v + w`; an array is overwritten in place,
and must have the shape of the result.  (The left side is never a list in the code.) -/
def iadd : AVal → AVal → M AVal
  | .num x, w => op2 (· + ·) (.num x) w
  | .ref a, .num y => do
      match ← getCell a with
      | .array xs => do
          write a (xs.map (· + y))
          pure (.ref a)
      | .list _ => throw .typeError
  | .ref a, .ref b => do
      match ← getCell a, ← getCell b with
      | .array xs, .array ys =>
          if xs.length = ys.length then do
            write a (List.zipWith (· + ·) xs ys)
            pure (.ref a)
          else match ys with
            | [y] => do
                write a (xs.map (· + y))
                pure (.ref a)
            | _ => throw .valueError
      | _, _ => throw .typeError

/-- A cross section whose `__call__` is a program on the store; `const` is `ConstantCrossSection(constant)`, whose constant may be
any value (`ries/cross_section.py:174-193`); `wsum` is a weighted sum with numbers as scale factors. -/
inductive AObj
  | leaf (p : AVal → M AVal)
  | const (v : AVal)
  | wsum (reactions : List AObj) (scales : List ℝ)

namespace AObj

mutual
/-- `obj(energy)`: `ConstantCrossSection.__call__` (`ries/cross_section.py:188-193`) returns the constant itself,
`CrossSectionWeightedSum.__call__` l.304-323 accumulates. -/
def call : AObj → AVal → M AVal
  | leaf p, E => p E
  | const v, _ => pure v
  | wsum rs ss, E => callLoop rs ss (.num 0) E

/-- the loop l.320-323: `cross_section += self.scale_factors[i] * reaction(energy)`. Python looks up the scale factor before it
evaluates the reaction. -/
def callLoop : List AObj → List ℝ → AVal → AVal → M AVal
  | [], _, acc, _ => pure acc
  | _ :: _, [], _, _ => throw .indexError
  | r :: rs, s :: ss, acc, E => do
      let v ← call r E
      let p ← op2 (· * ·) (.num s) v
      let acc' ← iadd acc p
      callLoop rs ss acc' E
end

end AObj

/-- `Resonance.__call__(E, input_is_absolute_energy)`, `ries/resonance/resonance.py:241-260`, with the method `pdf` of the probability
distribution as a program. -/
def resonanceCall (ics er : ℝ) (pdf : AVal → M AVal) (absolute : Bool) (E : AVal) : M AVal := do
  let E' ← if absolute then pure E else op2 (· + ·) E (.num er)
  let p ← pdf E'
  op2 (· * ·) (.num ics) p

/-- the method `pdf` of a scipy distribution (`norm`, `cauchy`, `uniform`) with given parameters -/
def scipyPdf (f : ℝ → ℝ) : AVal → M AVal := op1 f

/-- `PseudoVoigtDistribution.pdf`, `ries/resonance/pseudo_voigt.py:156-201`: `(1.0 - eta) * norm.pdf(x, ..) + eta * cauchy.pdf(x, ..)` -/
noncomputable def pvPdf (d : PV) (x : AVal) : M AVal := do
  let n ← op1 (normPdf d.er d.normScale) x
  let a ← op2 (· * ·) (.num (1 - d.eta)) n
  let c ← op1 (cauchyPdf d.er d.cauchyScale) x
  let b ← op2 (· * ·) (.num d.eta) c
  op2 (· + ·) a b

/-- `SemiPseudoVoigtDistribution.pdf`, `ries/resonance/voigt.py:112-126`: `voigt_profile(E - self.resonance_energy, ..)`, the profile
being given as a function of the difference -/
def voigtPdf (er : ℝ) (profile : ℝ → ℝ) (E : AVal) : M AVal := do
  let d ← op2 (· - ·) E (.num er)
  op1 profile d

/-- `KleinNishina.cs_total(E)`, `ries/nonresonant/klein_nishina.py:302-322`, operation by operation -/
noncomputable def knCall (k : PhysConst) (s : KN) (E : AVal) : M AVal := do
  let x ← op2 (· / ·) E (.num s.mc2)
  let c ← op1 (fun x => x ^ (-3 : ℤ)) x
  let a ← op2 (· * ·) (.num (Real.pi * s.scale k)) c
  let x2 ← op2 (· * ·) (.num 2) x
  let x1 ← op2 (· + ·) (.num 1) x
  let xx ← op2 (· * ·) x x1
  let x8 ← op2 (· + ·) (.num 8) x
  let y ← op2 (· * ·) xx x8
  let y2 ← op2 (· + ·) (.num 2) y
  let n ← op2 (· * ·) x2 y2
  let x2' ← op2 (· * ·) (.num 2) x
  let d ← op2 (· + ·) (.num 1) x2'
  let dd ← op1 (· ^ 2) d
  let q ← op2 (· / ·) n dd
  let u ← op2 (· - ·) x (.num 2)
  let ux ← op2 (· * ·) u x
  let v ← op2 (· - ·) ux (.num 2)
  let x2'' ← op2 (· * ·) (.num 2) x
  let d' ← op2 (· + ·) (.num 1) x2''
  let l ← op1 Real.log d'
  let w ← op2 (· * ·) v l
  let b ← op2 (· + ·) q w
  op2 (· * ·) a b

/-- `XRMAC.__call__(E)`, `ries/nonresonant/xrmac.py:131-144`: `10 ** (self.interpolation_log_log(np.log10(E)))`, the interpolation
being given as a function -/
noncomputable def xrmacCallA (interp : ℝ → ℝ) (E : AVal) : M AVal := do
  let x ← op1 (Real.logb 10) E
  let y ← op1 interp x
  op2 (fun a b => a ^ b) (.num 10) y

/-! ## Functions that take arrays -/

/-- Item assignments `g[0] = a; g[-1] = b` on an array (`ries/resonance/resonance.py:363-365`), in place. -/
def assignEnds (g : AVal) (a b : ℝ) : M Unit :=
  match g with
  | .num _ => throw .typeError
  | .ref i => do
      match ← getCell i with
      | .array [] => throw .indexError
      | .array [_] => write i [b]
      | .array (_ :: ys) => write i (a :: (ys.dropLast ++ [b]))
      | .list _ => throw .typeError

/-- `equidistant_probability_grid(coverage_or_limits, n)` for limits given as a sequence in the store,
`ries/resonance/resonance.py:351-366`; the methods `cdf` and `ppf` of the distribution are programs, `linspace` a function. -/
def probGridA (cdf ppf : AVal → M AVal) (linspace : ℝ → ℝ → List ℝ) (limits : ℕ) : M AVal := do
  let l ← cdf (.ref limits)
  match l with
  | .num _ => throw .typeError
  | .ref i => do
      match ← getCell i with
      | .array (l0 :: l1 :: _) => do
          let qs ← alloc (.array (linspace l0 l1))
          let g ← ppf qs
          match ← getCell limits with
          | .array (a :: b :: _) => do
              assignEnds g a b
              pure g
          | .list (a :: b :: _) => do
              assignEnds g a b
              pure g
          | _ => throw .indexError
      | _ => throw .indexError

/-- the numbers in an array or list -/
def Cell.entries : Cell → List ℝ
  | array xs => xs
  | list xs => xs

/-- the numbers in an array or list; a number has no `len`: `TypeError` -/
def entriesOf : AVal → M (List ℝ)
  | .num _ => throw .typeError
  | .ref a => do
      let c ← getCell a
      pure c.entries

/-- an exception or a value -/
def liftE {α : Type} : Except Err α → M α
  | .ok x => pure x
  | .error e => throw e

/-- item assignment `v[:] = xs` into an array, in place -/
def assign (v : AVal) (xs : List ℝ) : M Unit :=
  match v with
  | .num _ => throw .typeError
  | .ref a => write a xs

/-- `darboux(f, x)` for a callable `f`, `ries/integration/darboux.py:69-82`: `np.zeros` allocates two rows (here: two
arrays) that are then filled; the remaining operations work on new arrays. -/
noncomputable def darbouxA (f : AVal → M AVal) (x : AVal) : M (ℝ × ℝ) := do
  let xs ← entriesOf x
  let r ← alloc (.array (roll1 xs))
  let d ← op2 (· - ·) x r
  let ds ← entriesOf d
  let fx ← f x
  match ← entriesOf fx with
  | [] => throw .valueError
  | y :: ys => do
      let row0 ← alloc (.array (List.replicate ys.length 0))
      let row1 ← alloc (.array (List.replicate ys.length 0))
      assign row0 ((y :: ys).dropLast)
      assign row1 ys
      let lo ← entriesOf row0
      let hi ← entriesOf row1
      let l ← liftE (bmul (List.zipWith min lo hi) (ds.drop 1))
      let u ← liftE (bmul (List.zipWith max lo hi) (ds.drop 1))
      pure (l.sum, |u.sum - l.sum|)

end Ries.Arr
