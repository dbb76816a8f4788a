import Verif.Spec.Arrays

/-! # What it means that a function of several arguments works entry by entry -/

namespace Ries.Arr

open Ries

/-- an array or a list -/
def IsSeq (v : AVal) : Prop := ∃ a, v = .ref a

/-- Angles may be given as a number, an array, or a list; `ys` are the values. -/
def ShowsAngle (h : Store) (v : AVal) (ys : List ℝ) : Prop :=
  Shows h v ys ∨ ∃ a, v = .ref a ∧ h[a]? = some (.list ys)

/-- The program keeps all existing objects and returns something that shows the values `ys`: a new array as soon as one of the arguments
is a sequence, else a number. -/
def EntryByEntry (h : Store) (args : List AVal) (m : M AVal) (ys : List ℝ) : Prop :=
  ∃ v h', m h = (.ok v, h') ∧ h <+: h' ∧ Shows h' v ys ∧ Fresh h v ∧ (IsSeq v ↔ ∃ w ∈ args, IsSeq w)

end Ries.Arr
