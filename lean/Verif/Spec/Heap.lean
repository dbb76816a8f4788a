import Verif.Model.Heap

/-! # Specification vocabulary for object identity -/

namespace Ries.Heap

/-- every object of `h` is unchanged in `h'` -/
def Ext (h h' : Store) : Prop := ∀ (a : ℕ) (c : Cell), h[a]? = some c → h'[a]? = some c

/-- The object at address `b` can be reached from the value `v`. -/
inductive Reaches (h : Store) : HVal → ℕ → Prop
  | self (a : ℕ) : Reaches h (.ref a) a
  | reactions {a r s : ℕ} : h[a]? = some (.wsum r s) → Reaches h (.ref a) r
  | scales {a r s : ℕ} : h[a]? = some (.wsum r s) → Reaches h (.ref a) s
  | reaction {a r s b : ℕ} {xs : List HVal} {x : HVal} : h[a]? = some (.wsum r s) →
      h[r]? = some (.list xs) → x ∈ xs → Reaches h x b → Reaches h (.ref a) b
  | scale {a r s b : ℕ} {xs : List HVal} {x : HVal} : h[a]? = some (.wsum r s) →
      h[s]? = some (.list xs) → x ∈ xs → Reaches h x b → Reaches h (.ref a) b

/-- `v` is a weighted sum. -/
def IsSum (h : Store) (v : HVal) : Prop := ∃ a r s, v = .ref a ∧ h[a]? = some (.wsum r s)

/-- The constituents of an operand: the entries of both lists of a weighted sum, or the operand
itself. -/
def parts (h : Store) : HVal → List HVal
  | .num x => [.num x]
  | .ref a => match h[a]? with
    | some (.wsum r s) => (match h[r]? with
        | some (.list rs) => rs
        | _ => []) ++ (match h[s]? with
        | some (.list ss) => ss
        | _ => [])
    | _ => [.ref a]

/-- a sequence of in-place list edits -/
def edits (h : Store) (es : List (ℕ × List HVal)) : Store :=
  es.foldl (fun h e => edit h e.1 e.2) h

end Ries.Heap
