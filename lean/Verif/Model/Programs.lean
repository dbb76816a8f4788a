import Verif.Model.Heap

/-!
# Programs with names that calculate with cross sections

`Model/Heap` describes single operators on objects with identity. Here are whole user programs: names bound to objects, assignments,
augmented assignments, loops over lists, and `try`. Two names may refer to the same object.
-/

namespace Ries.Heap

open Ries

/-- Expressions of a user program. -/
inductive PExpr
  | lit (x : ℝ)
  | name (x : String)
  | add (a b : PExpr)
  | mul (a b : PExpr)
  | sub (a b : PExpr)
  | div (a b : PExpr)
  | neg (a : PExpr)

/-- Statements of a user program. -/
inductive Stmt
  | skip
  /-- `x = e` -/
  | assign (x : String) (e : PExpr)
  /-- `x += e` -/
  | iadd (x : String) (e : PExpr)
  /-- `x *= e` -/
  | imul (x : String) (e : PExpr)
  /-- one after the other -/
  | seq (p q : Stmt)
  /-- `for x in [e, ...]: p` -/
  | forIn (x : String) (es : List PExpr) (p : Stmt)
  /-- `try: p` / `except Exception: pass` -/
  | attempt (p : Stmt)

/-- the names of a program and the values they refer to -/
abbrev Names := String → Option HVal

/-- `a - b`: neither class of `ries/cross_section.py` (l.69-171, 174-200, 203-363) defines `__sub__` or `__rsub__`, so Python raises `TypeError` unless both are numbers. -/
def sub : HVal → HVal → M HVal
  | .num x, .num y => pure (.num (x - y))
  | _, _ => throw .typeError

/-- `a / b`: no `__truediv__`, no `__rtruediv__` in `ries/cross_section.py:69-363` -/
noncomputable def div : HVal → HVal → M HVal
  | .num x, .num y => if y = 0 then throw .zeroDivision else pure (.num (x / y))
  | _, _ => throw .typeError

/-- `-a`: no `__neg__` in `ries/cross_section.py:69-363` -/
def neg : HVal → M HVal
  | .num x => pure (.num (-x))
  | _ => throw .typeError

/-- The value assigned by `x += e`: the classes of `ries/cross_section.py:69-363` define no `__iadd__`, so Python calls `__add__` (or `__radd__` of the
right operand) and binds the name to the result. -/
def iadd (a b : HVal) : M HVal := add a b

/-- The value assigned by `x *= e`: no `__imul__` in `ries/cross_section.py:69-363`. -/
def imul (k : ℕ) (a b : HVal) : M HVal := mul k a b

/-- Evaluation of an expression, operands from left to right; `k` is the recursion limit. An unbound name raises `UnboundLocalError` (`NameError` outside of functions). -/
noncomputable def PExpr.eval (k : ℕ) (env : Names) : PExpr → M HVal
  | .lit x => pure (.num x)
  | .name x => match env x with
    | some v => pure v
    | none => throw .unboundLocal
  | .add a b => do
      let x ← a.eval k env
      let y ← b.eval k env
      Heap.add x y
  | .mul a b => do
      let x ← a.eval k env
      let y ← b.eval k env
      Heap.mul k x y
  | .sub a b => do
      let x ← a.eval k env
      let y ← b.eval k env
      Heap.sub x y
  | .div a b => do
      let x ← a.eval k env
      let y ← b.eval k env
      Heap.div x y
  | .neg a => do
      let x ← a.eval k env
      Heap.neg x

/-- the entries of a list display, from left to right -/
noncomputable def evalList (k : ℕ) (env : Names) : List PExpr → M (List HVal)
  | [] => pure []
  | e :: es => do
      let v ← e.eval k env
      let vs ← evalList k env es
      pure (v :: vs)

/-- bind a name -/
def Names.bind (env : Names) (x : String) (v : HVal) : Names := fun y => if y = x then some v else env y

/-- What a statement leaves: an exception or not, the names, the store. -/
abbrev Outcome := Except Err Unit × Names × Store

/-- the passes of a loop; an exception ends it -/
def loop (x : String) (body : Names → Store → Outcome) : List HVal → Names → Store → Outcome
  | [], env, h => (.ok (), env, h)
  | v :: vs, env, h => match body (env.bind x v) h with
    | (.ok (), env', h') => loop x body vs env' h'
    | o => o

/-- Execution of a statement. -/
noncomputable def Stmt.exec (k : ℕ) : Stmt → Names → Store → Outcome
  | .skip, env, h => (.ok (), env, h)
  | .assign x e, env, h => match e.eval k env h with
    | (.ok v, h') => (.ok (), env.bind x v, h')
    | (.error er, h') => (.error er, env, h')
  | .iadd x e, env, h => match (do let a ← (PExpr.name x).eval k env; let b ← e.eval k env; Heap.iadd a b : M HVal) h with
    | (.ok v, h') => (.ok (), env.bind x v, h')
    | (.error er, h') => (.error er, env, h')
  | .imul x e, env, h => match (do let a ← (PExpr.name x).eval k env; let b ← e.eval k env; Heap.imul k a b : M HVal) h with
    | (.ok v, h') => (.ok (), env.bind x v, h')
    | (.error er, h') => (.error er, env, h')
  | .seq p q, env, h => match p.exec k env h with
    | (.ok (), env', h') => q.exec k env' h'
    | o => o
  | .forIn x es p, env, h => match evalList k env es h with
    | (.ok vs, h') => loop x (p.exec k) vs env h'
    | (.error er, h') => (.error er, env, h')
  | .attempt p, env, h => match p.exec k env h with
    | (_, env', h') => (.ok (), env', h')

end Ries.Heap
