import Verif.Model.XrmacReader
import Mathlib.Data.Nat.Digits.Defs

/-!
# The ASCII format of the tables of Hubbell and Seltzer

`ries/nonresonant/xrmac.py:171-199` documents the format: an optional three-character label column,
then three numbers `d.dddddE±dd`, `d.dddE±dd`, `d.dddE±dd` separated by two blanks; in the shipped
files every line ends with a blank and a newline.
-/

namespace Ries

/-- a decimal digit as a character -/
def digitChar (d : Fin 10) : Char := Char.ofNat (48 + d.val)

/-- A number `d.d…dE±dd`. -/
structure Sci where
  d0 : Fin 10
  ds : List (Fin 10)
  eneg : Bool
  e1 : Fin 10
  e2 : Fin 10

namespace Sci

/-- the mantissa -/
def mantissa (x : Sci) : ℚ :=
  ((Nat.ofDigits 10 ((x.d0 :: x.ds).map Fin.val).reverse : ℕ) : ℚ) / 10 ^ x.ds.length

/-- the decimal exponent -/
def exponent (x : Sci) : ℤ :=
  if x.eneg then -(10 * x.e1.val + x.e2.val : ℤ) else 10 * x.e1.val + x.e2.val

/-- the number that is written -/
def value (x : Sci) : ℚ := x.mantissa * 10 ^ x.exponent

/-- the characters -/
def render (x : Sci) : Str :=
  digitChar x.d0 :: '.' :: (x.ds.map digitChar ++
    ['E', if x.eneg then '-' else '+', digitChar x.e1, digitChar x.e2])

end Sci

/-- A line of a table. -/
structure Line where
  label : Str
  energy : Sci
  mu : Sci
  muEn : Sci

namespace Line

/-- the line without its end: label column and three numbers -/
def body (l : Line) : Str :=
  l.label ++ (l.energy.render ++ ' ' :: ' ' :: (l.mu.render ++ ' ' :: ' ' :: l.muEn.render))

/-- the line with the trailing blank and the newline -/
def render (l : Line) : Str := l.body ++ [' ', '\n']

/-- the numbers on the line, converted -/
noncomputable def row (ec xc : ℝ → ℝ) (l : Line) : Row3 :=
  (ec (l.energy.value : ℝ), xc (l.mu.value : ℝ), xc (l.muEn.value : ℝ))

end Line

/-- A file with a label column: every label has three characters and no newline, and the first one
does not begin with a digit. -/
def Labelled (ls : List Line) : Prop :=
  (∀ l ∈ ls, l.label.length = 3 ∧ '\n' ∉ l.label) ∧
    ∀ l rest, ls = l :: rest → ∀ c t, l.label = c :: t → ¬ ('0' ≤ c ∧ c ≤ '9')

/-- A file without label column. -/
def Unlabelled (ls : List Line) : Prop := ∀ l ∈ ls, l.label = []

end Ries
