import Verif.Model.Num

/-!
# Model of `ries/constituents/isotope.py`

Containers of excited states live in a store, because the property is about which container an isotope refers to.
-/

namespace Ries.Iso

/-- a container of states: a list, a dictionary (`tests/boron.py` uses one), a numpy array of objects -/
inductive Cell (σ : Type)
  | list (xs : List σ)
  | dict (xs : List (String × σ))
  | array (xs : List σ)

/-- the store of containers; a reference is an index -/
abbrev Store (σ : Type) := List (Cell σ)

/-- the truth value of a container; that of an array with several entries is a `ValueError`, that of an array with one
entry is the truth value of the entry, and states are true -/
def Cell.truth {σ : Type} : Cell σ → Except Err Bool
  | .list xs => .ok !xs.isEmpty
  | .dict xs => .ok !xs.isEmpty
  | .array [] => .ok false
  | .array [_] => .ok true
  | .array _ => .error .valueError

/-- an instance of `Isotope`: name, mass, ground state and the reference to the container of excited states -/
structure Isotope (σ : Type) where
  AX : String
  amu : ℚ
  ground : Option σ
  excited : ℕ

/-- `Isotope.__init__`, `isotope.py:44-60`: `self.excited_states = excited_states or []`, where `[]` is a new list. A
reference outside of the store cannot occur in Python (reported as `runtimeError`). -/
def new {σ : Type} (h : Store σ) (AX : String) (amu : ℚ) (ground : Option σ) (ex : Option ℕ) :
    Except Err (Isotope σ × Store σ) :=
  match ex with
  | none => .ok (⟨AX, amu, ground, h.length⟩, h ++ [.list []])
  | some r =>
    match h[r]? with
    | none => .error .runtimeError
    | some c =>
      match c.truth with
      | .error e => .error e
      | .ok true => .ok (⟨AX, amu, ground, r⟩, h)
      | .ok false => .ok (⟨AX, amu, ground, h.length⟩, h ++ [.list []])

/-- `isotope.excited_states.append(s)` (an `AttributeError` unless the container is a list) -/
def append {σ : Type} (h : Store σ) (i : Isotope σ) (s : σ) : Except Err (Store σ) :=
  match h[i.excited]? with
  | some (.list xs) => .ok (h.set i.excited (.list (xs ++ [s])))
  | _ => .error .attributeError

/-- several isotopes, constructed one after the other from their arguments -/
def news {σ : Type} : Store σ → List (String × ℚ × Option σ × Option ℕ) → Except Err (List (Isotope σ) × Store σ)
  | h, [] => .ok ([], h)
  | h, (AX, amu, g, ex) :: as => do
      let (i, h1) ← new h AX amu g ex
      let (is, h2) ← news h1 as
      .ok (i :: is, h2)

end Ries.Iso
