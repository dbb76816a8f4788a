import Verif.Model.Num
import Mathlib.Data.Rat.Defs
import Mathlib.Algebra.Order.Ring.Rat

/-!
# Python text handling used by the data readers

Strings are lists of characters.  Only ASCII digits and white space are modelled; of the strings that
Python's `float` accepts, those for infinities and nan and those with underscores are not modelled
(they are rejected here).  Universal-newline translation is not modelled: no shipped file contains a
carriage return.
-/

namespace Ries

/-- A Python string. -/
abbrev Str := List Char

namespace Text

/-- white space removed by `float` and `int` -/
def isWs (c : Char) : Bool :=
  c = ' ' || c = '\t' || c = '\n' || c = '\r' || c = '\x0b' || c = '\x0c'

/-- `str.strip()` -/
def strip (s : Str) : Str := ((s.dropWhile isWs).reverse.dropWhile isWs).reverse

/-- value of a decimal digit -/
def digit? (c : Char) : Option ℕ :=
  if 48 ≤ c.toNat ∧ c.toNat ≤ 57 then some (c.toNat - 48) else none

/-- `c.isdigit()` -/
def isDigit (c : Char) : Bool := (digit? c).isSome

/-- the longest prefix of digits, and the rest -/
def spanDigits : Str → List ℕ × Str
  | [] => ([], [])
  | c :: t => match digit? c with
    | some d => let (ds, r) := spanDigits t; (d :: ds, r)
    | none => ([], c :: t)

/-- the number with the given decimal digits -/
def natOf (ds : List ℕ) : ℕ := ds.foldl (fun a d => 10 * a + d) 0

/-- an optional sign -/
def spanSign : Str → Bool × Str
  | '-' :: t => (true, t)
  | '+' :: t => (false, t)
  | t => (false, t)

/-- the fraction part of a decimal number -/
def spanFrac : Str → List ℕ × Str
  | '.' :: t => spanDigits t
  | t => ([], t)

/-- value of a decimal number -/
def decVal (neg : Bool) (ip fp : List ℕ) : ℚ :=
  (if neg then -1 else 1) * ((natOf (ip ++ fp) : ℚ) / 10 ^ fp.length)

/-- Python's `float(s)`: `ValueError` for other strings. -/
def parseFloat (s : Str) : Except Err ℚ :=
  let (neg, s) := spanSign (strip s)
  let (ip, r) := spanDigits s
  let (fp, r) := spanFrac r
  if ip = [] ∧ fp = [] then .error .valueError
  else match r with
    | [] => .ok (decVal neg ip fp)
    | c :: t =>
      if c = 'e' ∨ c = 'E' then
        let (eneg, t) := spanSign t
        let (ed, r2) := spanDigits t
        if ed = [] ∨ r2 ≠ [] then .error .valueError
        else .ok (decVal neg ip fp * (if eneg then (10 ^ natOf ed)⁻¹ else 10 ^ natOf ed))
      else .error .valueError

/-- Python's `int(s)`: `ValueError` for other strings. -/
def parseInt (s : Str) : Except Err ℤ :=
  let (neg, s) := spanSign (strip s)
  let (ds, r) := spanDigits s
  if ds = [] ∨ r ≠ [] then .error .valueError
  else .ok (if neg then -(natOf ds : ℤ) else natOf ds)

/-- the loop of `str.split("  ")` (two blanks); `cur` is the current piece, reversed -/
def splitTwo : Str → Str → List Str
  | [], cur => [cur.reverse]
  | [c], cur => [(c :: cur).reverse]
  | c :: d :: t, cur =>
      if c = ' ' ∧ d = ' ' then cur.reverse :: splitTwo t [] else splitTwo (d :: t) (c :: cur)

/-- `for line in file`: the lines of a text, each with its newline character if it has one;
`cur` is the current line, reversed. -/
def linesAux : Str → Str → List Str
  | [], cur => if cur = [] then [] else [cur.reverse]
  | c :: t, cur => if c = '\n' then (c :: cur).reverse :: linesAux t [] else linesAux t (c :: cur)

/-- `for line in file` -/
def lines (s : Str) : List Str := linesAux s []

/-- `sub in s` -/
def contains (sub : Str) : Str → Bool
  | [] => sub.isPrefixOf []
  | c :: t => sub.isPrefixOf (c :: t) || contains sub t

/-- `s.find(c)` for a character; `none` is `-1` -/
def find (c : Char) : Str → Option ℕ
  | [] => none
  | d :: t => if d = c then some 0 else (find c t).map (· + 1)

/-- `s[a:-n]` for nonnegative `a`, positive `n` -/
def slice (s : Str) (a n : ℕ) : Str := (s.take (s.length - n)).drop a

end Text
end Ries
