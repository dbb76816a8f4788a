import Verif.Model.RoundedThermal
import Verif.Spec.RoundedReso
import Verif.Spec.RoundedKN

/-! # Arithmetic with a limited range of exponents -/

namespace Ries

/-- zero, or between `2 ^ a` and `2 ^ b` in absolute value -/
def Mag (a b : ℤ) (x : ℝ) : Prop := x = 0 ∨ (2 : ℝ) ^ a ≤ |x| ∧ |x| ≤ (2 : ℝ) ^ b

/-- zero, or a number that neither overflows nor underflows in double precision -/
def Normal (x : ℝ) : Prop := Mag (-1022) 1023 x

/-- As `RArith.Accurate`, but nothing is known of an operation whose exact result overflows or underflows: the computed result
may be anything. -/
structure RArith.AccurateInRange (u : ℝ) (A : RArith) : Prop where
  fl : ∀ x, Normal x → |A.fl x - x| ≤ u * |x|
  sq : ∀ x, Normal (x ^ 2) → |A.sq x - x ^ 2| ≤ 4 * u * |x ^ 2|
  exp : ∀ x, Normal (Real.exp x) → |A.exp x - Real.exp x| ≤ 4 * u * |Real.exp x|
  sqrt : ∀ x, 0 ≤ x → Normal x → |A.sqrt x - Real.sqrt x| ≤ u * |Real.sqrt x|

/-- The constants of nature in units of MeV and fm, within a factor of a million of one. -/
structure PhysConst.InRange (k : PhysConst) : Prop where
  hbarc : Mag (-20) 20 k.hbarc
  alpha : Mag (-20) 20 k.alpha
  u : Mag (-20) 20 k.u
  kB : Mag (-20) 20 k.kB

/-- At most a million partial widths, each zero or between `2⁻¹⁰⁰` and `2¹⁰⁰` MeV, with different names. -/
def Level.InRange (l : Level) : Prop :=
  ∀ pw, l.widths = some pw → (pw.map Prod.fst).Nodup ∧ pw.length ≤ 2 ^ 20 ∧ ∀ x ∈ pw, 0 ≤ x.2 ∧ Mag (-100) 100 x.2

/-- As `Arith.Accurate`, but nothing is known of an operation whose exact result overflows or underflows. Results have 53
significant binary digits: the result of an operation with an exact result of at least `2 ^ e` is a multiple of `2 ^ (e - 52)`. -/
structure KN.Arith.AccurateInRange (u : ℝ) (a : KN.Arith) : Prop where
  fl : ∀ x, Normal x → |a.fl x - x| ≤ u * |x|
  lg : ∀ x, 0 < x → Normal (Real.log x) → |a.lg x - Real.log x| ≤ 4 * u * |Real.log x|
  cb : ∀ x, 0 < x → Normal (x ^ (-3 : ℤ)) → |a.cb x - x ^ (-3 : ℤ)| ≤ 4 * u * |x ^ (-3 : ℤ)|
  grid : ∀ x, Normal x → ∀ e : ℤ, (2 : ℝ) ^ e ≤ |x| → ∃ n : ℤ, a.fl x = n * 2 ^ (e - 52)

/-- double precision with gradual underflow: rounding to nearest, to a multiple of `2⁻¹⁰⁷⁴` below `2⁻¹⁰²²`; a result above `2¹⁰²³`
is replaced by an arbitrary value `c` -/
noncomputable def rnRange (c x : ℝ) : ℝ :=
  open Classical in
  if |x| < (2 : ℝ) ^ (-1022 : ℤ) then round (x * 2 ^ (1074 : ℕ)) / 2 ^ (1074 : ℕ)
  else if |x| ≤ (2 : ℝ) ^ (1023 : ℤ) then KN.rn x else c

end Ries
