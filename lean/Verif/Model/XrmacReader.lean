import Verif.Model.Text
import Verif.Model.Xrmac

/-!
# Model of `ries/nonresonant/xrmac.py`: reader and module-level dictionaries
-/

namespace Ries

open Text

/-- One row of the array returned by the reader. -/
abbrev Row3 := ℝ × ℝ × ℝ

/-- The body of the loop `for line in file`, `ries/nonresonant/xrmac.py:216-224`:
`line[skip:-2].split("  ")`, then the first three pieces.  A missing piece is an `IndexError`, a piece
that is no number a `ValueError` (the pieces are converted one after the other). -/
noncomputable def readXrmacLine (ec xc : ℝ → ℝ) (skip : ℕ) (line : Str) : Except Err Row3 :=
  match splitTwo (slice line skip 2) [] with
  | [] => .error .indexError
  | a :: rest => do
      let e ← parseFloat a
      match rest with
      | [] => .error .indexError
      | b :: rest => do
          let m ← parseFloat b
          match rest with
          | [] => .error .indexError
          | c :: _ => do
              let n ← parseFloat c
              .ok (ec (e : ℝ), xc (m : ℝ), xc (n : ℝ))

/-- `XRMAC.read_nist_xrmac`, `ries/nonresonant/xrmac.py:171-225`, on the text of the file.
`ec`, `xc` are `self.energy_conversion` and `self.xrmac_conversion`.  An empty file raises
`IndexError` (`readline()[0]`). -/
noncomputable def readXrmac (ec xc : ℝ → ℝ) (text : Str) : Except Err (List Row3) :=
  match text with
  | [] => .error .indexError
  | c :: _ =>
      let skip := if isDigit c then 0 else 3
      (lines text).mapM (readXrmacLine ec xc skip)

/-- The columns used by the interpolation. -/
def toTable (rows : List Row3) : Table := rows.map fun r => (r.1, r.2.1)

end Ries
