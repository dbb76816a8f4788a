import Verif.Model.Num

/-!
# Model of `ries/cross_section.py` (operators and evaluation)

Python is dynamically typed, so `Obj` is the type of everything that can occur as an operand.
-/

namespace Ries

/-- First argument of the grid methods: a coverage (a single number) or a pair of limits.
`ries/resonance/resonance.py:309-327`, `ries/cross_section.py:111-132`. -/
inductive Req
  | cov (c : ℝ)
  | lims (a b : ℝ)

/-- An instance of some subclass of `CrossSection` other than `ConstantCrossSection`
(`ries/cross_section.py:69-171`): what `__call__` does on a number, and what
`equidistant_probability_grid` returns.  The abstract class itself is the leaf both of whose
methods raise `NotImplementedError`.  Simplification: instances are identified with this behaviour;
extra keyword arguments of `__call__` are not modelled here. -/
structure Leaf where
  eval : ℝ → Except Err ℝ
  grid : Req → ℤ → Except Err (List Fl)

/-- `class CrossSection` itself: `ries/cross_section.py:72-77` and `134-171` raise. -/
def abstractLeaf : Leaf where
  eval _ := .error .notImplemented
  grid _ _ := .error .notImplemented

/-- Python objects that take part in cross-section arithmetic. -/
inductive Obj
  /-- an `int` or `float` -/
  | num (x : ℝ)
  /-- an instance of a subclass of `CrossSection` -/
  | leaf (l : Leaf)
  /-- `ConstantCrossSection(constant)`, `ries/cross_section.py:174-193` -/
  | const (c : ℝ)
  /-- `CrossSectionWeightedSum`, `ries/cross_section.py:203-226`: the attributes `reactions`
  and `scale_factors` (two separate lists, possibly of different length) -/
  | wsum (reactions scales : List Obj)

namespace Obj

/-- `isinstance(other, (int, float))` (`ries/cross_section.py:84,256`). -/
def isNum : Obj → Bool
  | num _ => true
  | _ => false

/-- The loop `for i, reaction in enumerate(reactions): out.append(scale_factors[i])`
(`ries/cross_section.py:252-254, 263-265`): the scale factors of all reactions,
`IndexError` when the second list is shorter. -/
def pairScales : List Obj → List Obj → Except Err (List Obj)
  | [], _ => .ok []
  | _ :: _, [] => .error .indexError
  | _ :: rs, s :: ss => (pairScales rs ss).map (s :: ·)

/-- `CrossSectionWeightedSum.__add__(self, other)`, `ries/cross_section.py:228-267`,
with `self.reactions = rs`, `self.scale_factors = ss`. -/
def wsumAdd (rs ss : List Obj) (other : Obj) : Except Err Obj := do
  let ss' ← pairScales rs ss
  match other with
  | num c => .ok (wsum (rs ++ [const c]) (ss' ++ [num 1]))
  | leaf l => .ok (wsum (rs ++ [leaf l]) (ss' ++ [num 1]))
  | const c => .ok (wsum (rs ++ [const c]) (ss' ++ [num 1]))
  | wsum rs2 ss2 => do
      let ss2' ← pairScales rs2 ss2
      .ok (wsum (rs ++ rs2) (ss' ++ ss2'))

/-- `CrossSection.__add__(self, other)`, `ries/cross_section.py:79-86`: a two-entry weighted sum
with the default scale factors `[1.0] * 2` of `__init__` (l.223-226). A weighted sum `other`
is nested, not flattened. -/
def csAdd (self other : Obj) : Obj :=
  match other with
  | num c => wsum [self, const c] [num 1, num 1]
  | o => wsum [self, o] [num 1, num 1]

/-- Python's `a + b`: `a.__add__(b)`, or `b.__radd__(a)` when `a` is a number.
`ries/cross_section.py:79-93, 228-274`; `__radd__` just calls `__add__` with swapped roles. -/
def add : Obj → Obj → Except Err Obj
  | num x, num y => .ok (num (x + y))
  | num x, wsum rs ss => wsumAdd rs ss (num x)
  | num x, b => .ok (csAdd b (num x))
  | wsum rs ss, b => wsumAdd rs ss b
  | a, b => .ok (csAdd a b)

mutual
/-- Python's `a * b`. `CrossSection.__mul__/__rmul__`, `ries/cross_section.py:95-109`:
`CrossSectionWeightedSum([self], [other])` whatever `other` is.
`CrossSectionWeightedSum.__mul__/__rmul__`, `ries/cross_section.py:276-302`: every scale factor
is replaced by `other * scale_factors[i]`. -/
def mul : Obj → Obj → Except Err Obj
  | num x, num y => .ok (num (x * y))
  | num x, wsum rs ss => (mulLoop (num x) rs ss).map (wsum rs)
  | num x, leaf l => .ok (wsum [leaf l] [num x])
  | num x, const c => .ok (wsum [const c] [num x])
  | wsum rs ss, b => (mulLoop b rs ss).map (wsum rs)
  | leaf l, b => .ok (wsum [leaf l] [b])
  | const c, b => .ok (wsum [const c] [b])
termination_by a b => (sizeOf a + sizeOf b, 0)

/-- The loop of `CrossSectionWeightedSum.__mul__`, `ries/cross_section.py:290-295`. -/
def mulLoop (other : Obj) : List Obj → List Obj → Except Err (List Obj)
  | [], _ => .ok []
  | _ :: _, [] => .error .indexError
  | _ :: rs, s :: ss => do
      let p ← mul other s
      let ps ← mulLoop other rs ss
      .ok (p :: ps)
termination_by rs ss => (sizeOf other + sizeOf ss, 1 + rs.length)
end

mutual
/-- `obj(E)` for a number `E`. A number is not callable (`TypeError`).
`CrossSection.__call__` l.72-77 (leaf), `ConstantCrossSection.__call__` l.188-193,
`CrossSectionWeightedSum.__call__` l.304-323. -/
def call : Obj → ℝ → Except Err Obj
  | num _, _ => .error .typeError
  | leaf l, E => (l.eval E).map num
  | const c, _ => .ok (num c)
  | wsum rs ss, E => callLoop rs ss (num 0) E

/-- The accumulation loop of `CrossSectionWeightedSum.__call__`, l.318-323:
`cross_section += self.scale_factors[i] * reaction(energy)`, starting from `0.0`. -/
def callLoop : List Obj → List Obj → Obj → ℝ → Except Err Obj
  | [], _, acc, _ => .ok acc
  | _ :: _, [], _, _ => .error .indexError
  | r :: rs, s :: ss, acc, E => do
      let v ← call r E
      let p ← mul s v
      let acc' ← add acc p
      callLoop rs ss acc' E
end

/-- `CrossSectionWeightedSum(reactions=None, scale_factors=None)`, `ries/cross_section.py:215-226`.
`None` is `none`. When `scale_factors` is omitted, `len(reactions)` is evaluated, which raises
`TypeError` if `reactions` is omitted too. -/
def mkWsum (reactions scales : Option (List Obj)) : Except Err Obj :=
  match reactions, scales with
  | none, none => .error .typeError
  | some rs, none => .ok (wsum rs (List.replicate rs.length (num 1)))
  | none, some ss => .ok (wsum [] ss)
  | some rs, some ss => .ok (wsum rs ss)

/-- Python's built-in `sum(iterable)`: left fold of `+` starting from the integer `0`. -/
def pySum (xs : List Obj) : Except Err Obj :=
  xs.foldlM add (num 0)

end Obj

/-! ## Evaluation on an array of energies -/

/-- The value of an evaluation on an array: a scalar or an array. -/
inductive Val
  | sc (x : ℝ)
  | arr (xs : List ℝ)

namespace Val

/-- numpy broadcasting of `+` for a scalar/1-d array; different lengths are a `ValueError`
(numpy would also stretch length-1 arrays; arrays here all have the length of the energy array). -/
def add : Val → Val → Except Err Val
  | sc x, sc y => .ok (sc (x + y))
  | sc x, arr ys => .ok (arr (ys.map (x + ·)))
  | arr xs, sc y => .ok (arr (xs.map (· + y)))
  | arr xs, arr ys =>
      if xs.length = ys.length then .ok (arr (List.zipWith (· + ·) xs ys)) else .error .valueError

/-- number times scalar/array -/
def scale (c : ℝ) : Val → Val
  | sc x => sc (c * x)
  | arr xs => arr (xs.map (c * ·))

end Val

namespace Obj

mutual
/-- `obj(Es)` for a 1-d array of energies: `ries/cross_section.py:188-193` returns the bare constant,
`304-323` accumulates with broadcasting. Simplification: a leaf is applied elementwise
(numpy-vectorised `__call__`), and only numeric scale factors are covered. -/
def callArr : Obj → List ℝ → Except Err Val
  | num _, _ => .error .typeError
  | leaf l, Es => (Es.mapM l.eval).map Val.arr
  | const c, _ => .ok (Val.sc c)
  | wsum rs ss, Es => callArrLoop rs ss (Val.sc 0) Es

/-- accumulation loop, `ries/cross_section.py:318-323` -/
def callArrLoop : List Obj → List Obj → Val → List ℝ → Except Err Val
  | [], _, acc, _ => .ok acc
  | _ :: _, [], _, _ => .error .indexError
  | r :: rs, num s :: ss, acc, Es => do
      let v ← callArr r Es
      let acc' ← acc.add (v.scale s)
      callArrLoop rs ss acc' Es
  | _ :: _, _ :: _, _, _ => .error .typeError
end

end Obj
end Ries
