import Verif.Model.Arrays

/-! # What it means that code leaves arrays alone and works entry by entry -/

namespace Ries.Arr

open Ries

/-- After the program every object that existed before has the same contents (also if the program raises). -/
def Keeps {α : Type} (m : M α) : Prop := ∀ h, h <+: (m h).2

/-- The value is a number or an array that is not among the objects of the store `h0`. -/
def Fresh (h0 : Store) : AVal → Prop
  | .num _ => True
  | .ref a => h0.length ≤ a

/-- Every cross section in the tree leaves existing objects alone when it is called. -/
inductive Gentle : AObj → Prop
  | leaf {p : AVal → M AVal} : (∀ v, Keeps (p v)) → Gentle (.leaf p)
  | const (v : AVal) : Gentle (.const v)
  | wsum {rs : List AObj} {ss : List ℝ} : (∀ r ∈ rs, Gentle r) → Gentle (.wsum rs ss)

/-- In the store the value stands for these numbers: an array with these entries, or a number that equals all of them (broadcast). -/
def Shows (h : Store) (v : AVal) (ys : List ℝ) : Prop :=
  match v with
  | .num c => ∀ y ∈ ys, y = c
  | .ref a => h[a]? = some (.array ys)

/-- The program computes the function `f` on the energies in `S`: on a number it returns the number `f e` and touches nothing; on
a sequence (`K` says whether array or list) it keeps all existing objects and returns something that shows the values entry by
entry. -/
structure Vectorised (K : List ℝ → Cell) (S : Set ℝ) (p : AVal → M AVal) (f : ℝ → ℝ) : Prop where
  number : ∀ e ∈ S, ∀ h, p (.num e) h = (.ok (.num (f e)), h)
  sequence : ∀ h a Es, h[a]? = some (K Es) → (∀ e ∈ Es, e ∈ S) →
    ∃ v h', p (.ref a) h = (.ok v, h') ∧ h <+: h' ∧ Shows h' v (Es.map f)

/-- The function that a tree of cross sections stands for, on the energies in `S`. -/
inductive Evaluates (K : List ℝ → Cell) (S : Set ℝ) : AObj → (ℝ → ℝ) → Prop
  | leaf {p : AVal → M AVal} {f : ℝ → ℝ} : Vectorised K S p f → Evaluates K S (.leaf p) f
  | const (c : ℝ) : Evaluates K S (.const (.num c)) fun _ => c
  | empty (ss : List ℝ) : Evaluates K S (.wsum [] ss) fun _ => 0
  | cons {r : AObj} {rs : List AObj} {ss : List ℝ} {f g : ℝ → ℝ} (s : ℝ) : Evaluates K S r f → Evaluates K S (.wsum rs ss) g →
      Evaluates K S (.wsum (r :: rs) (s :: ss)) fun e => s * f e + g e

end Ries.Arr
