import Verif.Model.Elements
import Verif.Spec.XrmacFormat

/-!
# The ASCII formats of the NIST element list and of the Geant4 density list

`ries/constituents/natural_element_data.py:52-72` documents lines `PROPERTY = VALUE` and
`PROPERTY = VALUE(UNCERTAINTY)`, `natural_element_data.py:209-219` lines `SYMBOL  VALUE`.
Here these formats are described by what they *write*; nothing refers to the functions that read them.
-/

namespace Ries

/-- A decimal number: digits, optionally a point and digits, optionally an exponent. -/
structure Dec where
  ip : List (Fin 10)
  fp : Option (List (Fin 10)) := none
  exp : Option (Bool × List (Fin 10)) := none
  deriving DecidableEq

namespace Dec

/-- there are digits before the point, and in the exponent if there is one -/
def Valid (x : Dec) : Prop := x.ip ≠ [] ∧ ∀ e, x.exp = some e → e.2 ≠ []

/-- the digits after the point -/
def frac (x : Dec) : List (Fin 10) := x.fp.getD []

/-- the number with the given digits -/
def nat (ds : List (Fin 10)) : ℕ := Nat.ofDigits 10 (ds.map Fin.val).reverse

/-- the factor given by the exponent -/
def scale (x : Dec) : ℚ :=
  match x.exp with
  | none => 1
  | some (neg, ds) => 10 ^ (if neg then -(nat ds : ℤ) else nat ds)

/-- the number that is written -/
def value (x : Dec) : ℚ := (nat (x.ip ++ x.frac) : ℚ) / 10 ^ x.frac.length * x.scale

/-- point and digits after it -/
def fracChars : Option (List (Fin 10)) → Str
  | none => []
  | some ds => '.' :: ds.map digitChar

/-- the exponent -/
def expChars : Option (Bool × List (Fin 10)) → Str
  | none => []
  | some (neg, ds) => 'e' :: ((if neg then ['-'] else []) ++ ds.map digitChar)

/-- the characters -/
def render (x : Dec) : Str := x.ip.map digitChar ++ fracChars x.fp ++ expChars x.exp

end Dec

/-- The value of a property: missing, plain, or with an uncertainty in parentheses. -/
inductive PropValue
  | empty
  | plain (x : Dec)
  | unc (x : Dec) (u : Str)
  deriving DecidableEq

namespace PropValue

def render : PropValue → Str
  | empty => []
  | plain x => x.render
  | unc x u => x.render ++ '(' :: (u ++ [')'])

/-- the value that is written, if there is one -/
def written : PropValue → Option ℚ
  | empty => none
  | plain x => some x.value
  | unc x _ => some x.value

/-- numbers are valid, and the uncertainty is any text on the line without `=` -/
def Valid : PropValue → Prop
  | empty => True
  | plain x => x.Valid
  | unc x u => x.Valid ∧ '\n' ∉ u ∧ '=' ∉ u

/-- the field is missing or has an uncertainty -/
def HasUnc : PropValue → Prop
  | plain _ => False
  | _ => True

end PropValue

/-- The properties that are looked for. -/
def nistProperties : List Str :=
  ["Atomic Number = ".toList, "Atomic Symbol = ".toList, "Mass Number = ".toList,
   "Relative Atomic Mass = ".toList, "Isotopic Composition = ".toList]

/-- A line without any of the properties (comments, other properties, empty lines). -/
def Junk (l : Str) : Prop := '\n' ∉ l ∧ ∀ q ∈ nistProperties, ¬ q <:+: l

/-- The paragraph of an isotope. -/
structure Para where
  Z : ℕ
  X : Str
  A : ℕ
  amu : PropValue
  comp : PropValue
  rest : List Str

namespace Para

/-- the lines of a paragraph -/
def lines (p : Para) : List Str :=
  ["Atomic Number = ".toList ++ Nat.toDigits 10 p.Z, "Atomic Symbol = ".toList ++ p.X,
   "Mass Number = ".toList ++ Nat.toDigits 10 p.A, "Relative Atomic Mass = ".toList ++ p.amu.render,
   "Isotopic Composition = ".toList ++ p.comp.render] ++ p.rest

/-- the name of the isotope: mass number and symbol -/
def name (p : Para) : Str := Nat.toDigits 10 p.A ++ p.X

/-- a symbol is not empty and has no `=`; all other lines are other lines -/
def Valid (p : Para) : Prop :=
  p.X ≠ [] ∧ '\n' ∉ p.X ∧ '=' ∉ p.X ∧ p.amu.Valid ∧ p.comp.Valid ∧ ∀ l ∈ p.rest, Junk l

end Para

/-- A NIST file: a header, paragraphs, and a last line without newline (possibly empty). -/
structure NistFile where
  header : List Str
  paras : List Para
  tail : Str

namespace NistFile

/-- the text of the file -/
def render (f : NistFile) : Str :=
  (f.header ++ f.paras.flatMap Para.lines).flatMap (fun l => l ++ ['\n']) ++ f.tail

/-- a file in the documented format -/
def Valid (f : NistFile) : Prop :=
  (∀ l ∈ f.header, Junk l) ∧ (∀ p ∈ f.paras, p.Valid) ∧ Junk f.tail

/-- the paragraphs are sorted by atomic number -/
def Sorted (f : NistFile) : Prop := f.paras.Pairwise fun p q => p.Z ≤ q.Z

/-- the isotopes listed under an atomic number -/
def isotopesOf (f : NistFile) (Z : ℕ) : List Para := f.paras.filter fun p => p.Z = Z

end NistFile

/-- the first paragraph with this atomic number has this symbol -/
def FirstSymbol (ps : List Para) (z : Option ℤ) (X : Option Str) : Prop :=
  ∃ pre p post, ps = pre ++ p :: post ∧ (∀ q ∈ pre, q.Z ≠ p.Z) ∧ z = some (p.Z : ℤ) ∧ X = some p.X

/-! ## Densities -/

/-- A line of the density list: a symbol of one or two characters, padded to two characters, blanks,
a number, blanks. -/
structure DensLine where
  X : Str
  pad1 : ℕ
  rho : Dec
  pad2 : ℕ
  deriving DecidableEq

namespace DensLine

def body (l : DensLine) : Str :=
  l.X ++ List.replicate (2 - l.X.length) ' ' ++ List.replicate l.pad1 ' ' ++ l.rho.render ++
    List.replicate l.pad2 ' '

end DensLine

/-- an element symbol: one or two letters -/
def IsSymbol (X : Str) : Prop := (X.length = 1 ∨ X.length = 2) ∧ ∀ c ∈ X, c.isAlpha

/-- a comment line: `#` alone or followed by a blank -/
def IsComment (l : Str) : Prop := '\n' ∉ l ∧ (l = ['#'] ∨ ∃ t, l = '#' :: ' ' :: t)

/-- A density list: comments, lines, and optionally a last line without newline. -/
structure DensFile where
  comments : List Str
  entries : List DensLine
  last : Option DensLine

namespace DensFile

def render (f : DensFile) : Str :=
  (f.comments ++ f.entries.map DensLine.body).flatMap (fun l => l ++ ['\n']) ++
    f.last.toList.flatMap DensLine.body

/-- all lines -/
def all (f : DensFile) : List DensLine := f.entries ++ f.last.toList

def Valid (f : DensFile) : Prop :=
  (∀ l ∈ f.comments, IsComment l) ∧ ∀ l ∈ f.all, IsSymbol l.X ∧ l.rho.Valid

end DensFile

end Ries
