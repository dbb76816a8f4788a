import Verif.Spec.CrossSection

/-! # Specification vocabulary for rounded arithmetic -/

namespace Ries

/-- The standard model of floating-point arithmetic: a relative error of at most `u` per operation
(`u = 2⁻⁵³` for Python floats, as long as no overflow or underflow occurs). -/
def Rounding (u : ℝ) (fl : ℝ → ℝ) : Prop := ∀ x, |fl x - x| ≤ u * |x|

mutual
/-- The meaning of an expression (`Expr.den`) with all numbers replaced by their absolute values. -/
def Expr.mag (E : ℝ) : Expr → Except Err ℝ
  | .num c => .ok |c|
  | .atom l => (l.eval E).map abs
  | .const c => .ok |c|
  | .add a b => do
      let x ← a.mag E
      let y ← b.mag E
      .ok (x + y)
  | .mul a b => do
      let x ← a.mag E
      let y ← b.mag E
      .ok (x * y)
  | .sum xs => Expr.mags E xs
/-- sum over a list -/
def Expr.mags (E : ℝ) : List Expr → Except Err ℝ
  | [] => .ok 0
  | x :: xs => do
      let v ← x.mag E
      let w ← Expr.mags E xs
      .ok (v + w)
end

mutual
/-- Number of roundings on a path through an expression: at most three per addition, two per multiplication, three per
element of a built-in `sum`. -/
def Expr.roundings : Expr → ℕ
  | .num _ => 0
  | .atom _ => 0
  | .const _ => 0
  | .add a b => a.roundings + b.roundings + 3
  | .mul a b => a.roundings + b.roundings + 2
  | .sum xs => Expr.roundingss xs
/-- sum over a list -/
def Expr.roundingss : List Expr → ℕ
  | [] => 0
  | x :: xs => x.roundings + 3 + Expr.roundingss xs
end

end Ries
