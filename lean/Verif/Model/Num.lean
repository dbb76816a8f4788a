import Mathlib.Data.EReal.Basic
import Mathlib.Order.WithBot

/-!
# Numbers and exceptions

Python floats are modelled by exact reals.  `Fl` adds the special values of IEEE arithmetic where
the code can produce them.  Exceptions are values of `Err`.
-/

namespace Ries

/-- The Python exception classes that the modelled code can raise. -/
inductive Err
  | typeError | valueError | indexError | keyError | zeroDivision | attributeError
  | notImplemented | runtimeError | unboundLocal
  deriving DecidableEq, Repr

/-- A float result: a number of the (idealised, exact) real line, an infinity, or nan. -/
inductive Fl
  | fin (x : ℝ) | ninf | pinf | nan

namespace Fl

/-- numpy's sort order: -inf < numbers < +inf < nan. -/
noncomputable def key : Fl → WithTop EReal
  | fin x => ((x : EReal) : WithTop EReal)
  | ninf => ((⊥ : EReal) : WithTop EReal)
  | pinf => ((⊤ : EReal) : WithTop EReal)
  | nan => ⊤

theorem key_injective : Function.Injective key := by
  intro a b h
  cases a <;> cases b <;> simp_all [key]

/-- numpy's sort order as a linear order (used by `np.unique`). -/
noncomputable instance : LinearOrder Fl := LinearOrder.lift' key key_injective

theorem le_def (a b : Fl) : a ≤ b ↔ key a ≤ key b := Iff.rfl
theorem lt_def (a b : Fl) : a < b ↔ key a < key b := Iff.rfl

@[simp] theorem fin_le_fin {x y : ℝ} : fin x ≤ fin y ↔ x ≤ y := by
  simp [le_def, key]
@[simp] theorem fin_lt_fin {x y : ℝ} : fin x < fin y ↔ x < y := by
  simp [lt_def, key]

/-- Multiplication of a float result by a (finite) number. -/
noncomputable def smul (c : ℝ) : Fl → Fl
  | fin x => fin (c * x)
  | nan => nan
  | pinf => if 0 < c then pinf else if c < 0 then ninf else nan
  | ninf => if 0 < c then ninf else if c < 0 then pinf else nan

/-- Addition of float results. -/
def add : Fl → Fl → Fl
  | fin x, fin y => fin (x + y)
  | nan, _ => nan
  | _, nan => nan
  | pinf, ninf => nan
  | ninf, pinf => nan
  | pinf, _ => pinf
  | _, pinf => pinf
  | ninf, _ => ninf
  | _, ninf => ninf

/-- The Python comparison `v < 0.0` (false for nan). -/
def isNeg : Fl → Prop
  | fin x => x < 0
  | ninf => True
  | pinf => False
  | nan => False

/-- `np.isinf`. -/
def isInf : Fl → Prop
  | ninf => True
  | pinf => True
  | _ => False

end Fl

end Ries
