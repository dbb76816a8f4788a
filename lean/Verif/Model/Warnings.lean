import Verif.Model.Resonance

/-!
What a user sees of the warnings of `coverage_interval` (`ries/resonance/resonance.py`, l.295-305).

`warnings.warn(text, UserWarning)` does not print every warning. With the action Python applies unless it is told
otherwise (`"default"`) a warning is printed if no warning with the same text, category and line has been printed by the
same module before; with the action `"always"` it is always printed. Category and line are determined by the text here,
since the two calls of `warnings.warn` have different texts.

Simplified: of the text only what varies is kept, the number formatted by `{:f}`. Numbers that are not finite share one
text, and a tie is rounded upwards. The registry of printed warnings is not emptied (Python does so if the filters are
changed in between).
-/

namespace Ries

/-- The texts: `Unphysical negative lower limit ... {:f} %.` (l.296-301) with the number in millionths, and `Infinite upper
limit of coverage interval encountered.` (l.302-305). -/
inductive Notice where
  | negative (millionths : Option ℤ)
  | infinite
  deriving DecidableEq

/-- `"{:f}".format(x)`, l.297-299: six digits after the point. -/
noncomputable def sixDigits : Fl → Option ℤ
  | .fin x => some ⌊x * 1000000 + 1 / 2⌋
  | _ => none

open Classical in
/-- The calls of `warnings.warn` made by `coverage_interval`, l.295-305, in their order. -/
noncomputable def Reso.Cov.notices (ci : Reso.Cov) : List Notice :=
  (match ci.warnNegative with
    | some x => [.negative (sixDigits x)]
    | none => []) ++ (if ci.warnInfinite then [.infinite] else [])

/-- Actions of the filter of warnings. -/
inductive WarnAction where
  | default
  | always

/-- `warnings.warn(text, UserWarning)`: the printed texts and the registry afterwards. -/
def warnOne (act : WarnAction) (reg : List Notice) (m : Notice) : List Notice × List Notice :=
  match act with
  | .always => ([m], reg)
  | .default => if m ∈ reg then ([], reg) else ([m], m :: reg)

/-- Several calls of `warnings.warn`, one after the other. -/
def warnAll (act : WarnAction) : List Notice → List Notice → List Notice × List Notice
  | reg, [] => ([], reg)
  | reg, m :: ms =>
      let (shown, reg) := warnOne act reg m
      let (shown', reg) := warnAll act reg ms
      (shown ++ shown', reg)

/-- A program that calls `r.coverage_interval(c)` for several objects and coverages: for every call its result and the
warnings printed during it. Calls that raise print nothing: both calls of `warnings.warn` follow everything that can raise,
apart from the evaluation of the number in the first text. -/
noncomputable def coverageSession (act : WarnAction) :
    List Notice → List (Reso × ℝ) → List (Except Err Reso.Cov × List Notice)
  | _, [] => []
  | reg, (r, c) :: rest =>
      match r.coverageInterval c with
      | .error e => (.error e, []) :: coverageSession act reg rest
      | .ok ci =>
          let (shown, reg) := warnAll act reg ci.notices
          (.ok ci, shown) :: coverageSession act reg rest

end Ries
