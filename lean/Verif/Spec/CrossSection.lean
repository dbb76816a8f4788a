import Verif.Model.CrossSection

/-! # Specification vocabulary for cross-section arithmetic -/

namespace Ries

open Obj

/-- A well-formed cross section: a leaf, a constant, or a weighted sum whose reactions are
well-formed cross sections, whose scale factors are numbers and which has a scale factor for
every reaction. -/
inductive WF : Obj → Prop
  | leaf (l : Leaf) : WF (.leaf l)
  | const (c : ℝ) : WF (.const c)
  | wsum (rs ss : List Obj) (hr : ∀ r ∈ rs, WF r) (hs : ∀ s ∈ ss, ∃ c, s = .num c)
      (hl : rs.length ≤ ss.length) : WF (.wsum rs ss)

/-- A legal operand of `+`: a number or a well-formed cross section. -/
def Operand (o : Obj) : Prop := (∃ c, o = .num c) ∨ WF o

/-- The value a user sees: a number `c` counts as the constant function `c`; a cross section is
called; an evaluation that does not give a number is a type error. -/
def value (o : Obj) (E : ℝ) : Except Err ℝ :=
  match o with
  | .num c => .ok c
  | o => match o.call E with
    | .ok (.num x) => .ok x
    | .ok _ => .error .typeError
    | .error e => .error e

/-- Arithmetic expressions over cross sections as a user writes them. -/
inductive Expr
  | num (c : ℝ)
  | atom (l : Leaf)
  | const (c : ℝ)
  | add (a b : Expr)
  | mul (a b : Expr)
  /-- built-in `sum([...])` -/
  | sum (xs : List Expr)

/-- The two kinds of expression: plain number or cross section. -/
inductive Ty
  | num | cs
  deriving DecidableEq

/-- Result kind of `+`. -/
def Ty.join : Ty → Ty → Ty
  | .num, .num => .num
  | _, _ => .cs

mutual
/-- Kind of an expression; `none` for a product of two cross sections. -/
def Expr.ty : Expr → Option Ty
  | .num _ => some .num
  | .atom _ => some .cs
  | .const _ => some .cs
  | .add a b => do
      let s ← a.ty
      let t ← b.ty
      some (s.join t)
  | .mul a b => do
      let s ← a.ty
      let t ← b.ty
      match s, t with
      | .cs, .cs => none
      | s, t => some (s.join t)
  | .sum xs => Expr.tys xs
/-- Kind of a built-in `sum`. -/
def Expr.tys : List Expr → Option Ty
  | [] => some .num
  | x :: xs => do
      let s ← x.ty
      let t ← Expr.tys xs
      some (s.join t)
end

mutual
/-- What Python computes: run the overloaded operators. -/
def Expr.run : Expr → Except Err Obj
  | .num c => .ok (.num c)
  | .atom l => .ok (.leaf l)
  | .const c => .ok (.const c)
  | .add a b => do
      let x ← a.run
      let y ← b.run
      Obj.add x y
  | .mul a b => do
      let x ← a.run
      let y ← b.run
      Obj.mul x y
  | .sum xs => do
      let os ← Expr.runs xs
      Obj.pySum os
/-- evaluate the elements of a list display -/
def Expr.runs : List Expr → Except Err (List Obj)
  | [] => .ok []
  | x :: xs => do
      let o ← x.run
      let os ← Expr.runs xs
      .ok (o :: os)
end

mutual
/-- What the expression means at energy `E`: replace each cross section by its value and do ordinary
arithmetic; if an evaluation raises, the leftmost one that raises determines the exception. -/
def Expr.den (E : ℝ) : Expr → Except Err ℝ
  | .num c => .ok c
  | .atom l => l.eval E
  | .const c => .ok c
  | .add a b => do
      let x ← a.den E
      let y ← b.den E
      .ok (x + y)
  | .mul a b => do
      let x ← a.den E
      let y ← b.den E
      .ok (x * y)
  | .sum xs => Expr.dens E xs
/-- sum of the meanings of a list of expressions -/
def Expr.dens (E : ℝ) : List Expr → Except Err ℝ
  | [] => .ok 0
  | x :: xs => do
      let v ← x.den E
      let w ← Expr.dens E xs
      .ok (v + w)
end

/-- An object has kind `t`. -/
def HasTy (o : Obj) : Ty → Prop
  | .num => ∃ c, o = .num c
  | .cs => WF o

end Ries
