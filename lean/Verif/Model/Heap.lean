import Verif.Model.CrossSection

/-!
# Model of `ries/cross_section.py` with object identity

`Model/CrossSection` treats objects as immutable trees.  Here objects live in a store, lists are
mutable cells, and the operators allocate and append the way the Python code does, so that sharing
and in-place edits can be expressed.
-/

namespace Ries.Heap

open Ries

/-- A Python value: a number, or a reference to an object in the store. -/
inductive HVal
  | num (x : ℝ)
  | ref (a : ℕ)

/-- An object in the store.
`leaf`: instance of a subclass of `CrossSection` (`ries/cross_section.py:69-171`);
`const`: `ConstantCrossSection` (l.174-193); `list`: a Python list;
`wsum`: `CrossSectionWeightedSum` (l.203-226), whose two attributes are references to lists. -/
inductive Cell
  | leaf (l : Leaf)
  | const (c : ℝ)
  | list (xs : List HVal)
  | wsum (reactions scales : ℕ)

/-- The store; an address is an index.  Objects are never freed. -/
abbrev Store := List Cell

/-- Code that reads and writes the store and may raise; the store survives an exception. -/
abbrev M (α : Type) := Store → Except Err α × Store

instance : Monad M where
  pure x := fun h => (.ok x, h)
  bind m f := fun h => match m h with
    | (.ok x, h') => f x h'
    | (.error e, h') => (.error e, h')

/-- `raise` -/
def throw {α : Type} (e : Err) : M α := fun h => (.error e, h)

/-- create an object -/
def alloc (c : Cell) : M ℕ := fun h => (.ok h.length, h ++ [c])

/-- look at an object -/
def getCell (a : ℕ) : M Cell := fun h => match h[a]? with
  | some c => (.ok c, h)
  | none => (.error .attributeError, h)

/-- the entries of a list object -/
def getList (a : ℕ) : M (List HVal) := fun h => match h[a]? with
  | some (.list xs) => (.ok xs, h)
  | _ => (.error .typeError, h)

/-- `lst.append(v)`, in place -/
def append (a : ℕ) (v : HVal) : M Unit := fun h => match h[a]? with
  | some (.list xs) => (.ok (), h.set a (.list (xs ++ [v])))
  | _ => (.error .attributeError, h)

/-- `CrossSectionWeightedSum(reactions, scale_factors)` with two list objects,
`ries/cross_section.py:215-226`: the lists are stored by reference, except that an empty
`reactions` is replaced by a new empty list (`reactions or []`). -/
def newWsum (r s : ℕ) : M HVal := do
  let rs ← getList r
  let r' ← (match rs with
    | [] => alloc (.list [])
    | _ => pure r)
  let w ← alloc (.wsum r' s)
  pure (.ref w)

/-- `CrossSection.__add__(self, other)`, `ries/cross_section.py:79-86`; the scale factors are the
default `[1.0] * len(reactions)` of l.223-225. -/
def csAdd (self : ℕ) (other : HVal) : M HVal := do
  let o ← (match other with
    | .num c => do
        let k ← alloc (.const c)
        pure (.ref k)
    | .ref b => pure (.ref b))
  let r ← alloc (.list [.ref self, o])
  let s ← alloc (.list [.num 1, .num 1])
  newWsum r s

/-- `for i, reaction in enumerate(src): reactions.append(reaction);
scale_factors.append(srcScales[i])` — `ries/cross_section.py:250-254, 262-265`.
`dr`, `ds` are the lists being filled.  Simplification: the entries of `src` are read once at
the start of the loop (nothing in the loop changes them, `C04_frame`). -/
def copyLoop (dr ds srcScales : ℕ) : List HVal → ℕ → M Unit
  | [], _ => pure ()
  | r :: rs, i => do
      append dr r
      let ss ← getList srcScales
      match ss[i]? with
      | none => throw .indexError
      | some x => do
          append ds x
          copyLoop dr ds srcScales rs (i + 1)

/-- `CrossSectionWeightedSum.__add__(self, other)`, `ries/cross_section.py:248-267`, for
`self.reactions = r`, `self.scale_factors = s`. -/
def wsumAdd (r s : ℕ) (other : HVal) : M HVal := do
  let dr ← alloc (.list [])
  let ds ← alloc (.list [])
  let rs ← getList r
  copyLoop dr ds s rs 0
  (match other with
    | .num c => do
        let k ← alloc (.const c)
        append dr (.ref k)
        append ds (.num 1)
    | .ref b => do
        let cell ← getCell b
        (match cell with
          | .leaf _ | .const _ => do
              append dr (.ref b)
              append ds (.num 1)
          | .wsum r2 s2 => do
              let rs2 ← getList r2
              copyLoop dr ds s2 rs2 0
          | .list _ => throw .attributeError))
  newWsum dr ds

/-- `obj.__add__(other)` for an object of the store. -/
def objAdd (a : ℕ) (other : HVal) : M HVal := do
  let c ← getCell a
  match c with
  | .leaf _ | .const _ => csAdd a other
  | .wsum r s => wsumAdd r s other
  | .list _ => throw .typeError

/-- Python's `a + b`; for a number on the left `b.__radd__(a)`, which is `b.__add__(a)`
(`ries/cross_section.py:88-93, 269-274`). -/
def add : HVal → HVal → M HVal
  | .num x, .num y => pure (.num (x + y))
  | .num x, .ref b => objAdd b (.num x)
  | .ref a, b => objAdd a b

/-- `CrossSection.__mul__(self, other)`, `ries/cross_section.py:95-102`. -/
def csMul (self : ℕ) (other : HVal) : M HVal := do
  let r ← alloc (.list [.ref self])
  let s ← alloc (.list [other])
  newWsum r s

/-- The loop of `CrossSectionWeightedSum.__mul__`, `ries/cross_section.py:290-294`; `times` is
Python's `other * _`. -/
def mulLoop (times : HVal → M HVal) (dr ds srcScales : ℕ) : List HVal → ℕ → M Unit
  | [], _ => pure ()
  | r :: rs, i => do
      append dr r
      let ss ← getList srcScales
      match ss[i]? with
      | none => throw .indexError
      | some x => do
          let p ← times x
          append ds p
          mulLoop times dr ds srcScales rs (i + 1)

/-- `CrossSectionWeightedSum.__mul__(self, other)`, `ries/cross_section.py:276-295`. -/
def wsumMul (times : HVal → M HVal) (r s : ℕ) : M HVal := do
  let dr ← alloc (.list [])
  let ds ← alloc (.list [])
  let rs ← getList r
  mulLoop times dr ds s rs 0
  newWsum dr ds

/-- `obj.__mul__(other)` for an object of the store; `times` is `other * _`. -/
def objMul (times : HVal → M HVal) (a : ℕ) (other : HVal) : M HVal := do
  let c ← getCell a
  match c with
  | .leaf _ | .const _ => csMul a other
  | .wsum r s => wsumMul times r s
  | .list _ => throw .typeError

/-- Python's `a * b`; for a number on the left `b.__rmul__(a)`, which is `b.__mul__(a)`
(`ries/cross_section.py:104-109, 297-302`).  The first argument is the recursion limit; running
into it is Python's `RecursionError`, a `RuntimeError`. -/
def mul : ℕ → HVal → HVal → M HVal
  | 0, _, _ => throw .runtimeError
  | _ + 1, .num x, .num y => pure (.num (x * y))
  | n + 1, .num x, .ref b => objMul (mul n (.num x)) b (.num x)
  | n + 1, .ref a, b => objMul (mul n b) a b

/-- What an object currently is, as a tree of the value-level model (reading every list at its
present contents); `none` for dangling references and for objects nested deeper than the bound.
Calling an object reads exactly this (`ries/cross_section.py:304-323`). -/
def reify : ℕ → Store → HVal → Option Obj
  | 0, _, _ => none
  | _ + 1, _, .num x => some (.num x)
  | n + 1, h, .ref a => match h[a]? with
    | some (.leaf l) => some (.leaf l)
    | some (.const c) => some (.const c)
    | some (.wsum r s) => match h[r]?, h[s]? with
      | some (.list rs), some (.list ss) =>
          (rs.mapM (reify n h)).bind fun rs' =>
            (ss.mapM (reify n h)).map fun ss' => .wsum rs' ss'
      | _, _ => none
    | _ => none

/-- One arithmetic operation of a user program on values it holds. -/
inductive Op
  | add (a b : HVal)
  | mul (limit : ℕ) (a b : HVal)

/-- perform the operation (an exception is caught by the user program) -/
def Op.exec : Op → Store → Store
  | .add a b, h => (Heap.add a b h).2
  | .mul n a b, h => (Heap.mul n a b h).2

/-- a history of operations -/
def runOps (ops : List Op) (h : Store) : Store :=
  ops.foldl (fun h o => o.exec h) h

/-- In-place edits of list objects by the user (`lst.append`, `lst[i] = v`, `del lst[i]`,
`lst.clear()`, ...): the list object at an address gets other contents. -/
def edit (h : Store) (a : ℕ) (xs : List HVal) : Store :=
  match h[a]? with
  | some (.list _) => h.set a (.list xs)
  | _ => h

end Ries.Heap
