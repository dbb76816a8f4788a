import Verif.Lemmas.Rounded
import Mathlib.Analysis.SpecialFunctions.Exp
import Mathlib.Analysis.Complex.ExponentialBounds

/-!
# C79: rounding errors of composed cross sections

`Expr.runR fl` runs the overloaded operators with a rounding `fl` after every arithmetic operation, `valueR fl` evaluates the
result in the same way; for `fl = id` these are the exact functions of C01 – C03 (`runR_id`, `valueR_id`).
-/

namespace Ries
open Obj

variable {u : ℝ} {fl : ℝ → ℝ}

/-- kind of the object that an expression evaluates to, as far as it is needed for products -/
def NumIf (t : Ty) (o : Obj) : Prop := t = .num → ∃ c, o = num c

theorem join_num {s t : Ty} (h : s.join t = .num) : s = .num ∧ t = .num := by
  cases s <;> cases t <;> simp_all [Ty.join]

theorem addR_numIf {s t : Ty} {a b o : Obj} (ha : NumIf s a) (hb : NumIf t b) (h : addR fl a b = .ok o) :
    NumIf (s.join t) o := by
  intro hj
  obtain ⟨rfl, rfl⟩ := join_num hj
  obtain ⟨c, rfl⟩ := ha rfl
  obtain ⟨d, rfl⟩ := hb rfl
  cases h
  exact ⟨_, rfl⟩

mutual
theorem run_near (hu : 0 ≤ u) (hfl : Rounding u fl) (E : ℝ) : ∀ (e : Expr) {t : Ty} {x : ℝ}, e.ty = some t →
    e.den E = .ok x → ∃ o X, e.runR fl = .ok o ∧ e.mag E = .ok X ∧ NumIf t o ∧ NearO u fl E e.roundings o x X
  | .num c, t, x, _, hx => by
    rw [Expr.den] at hx
    cases hx
    exact ⟨_, _, by rw [Expr.runR], by rw [Expr.mag], fun _ => ⟨c, rfl⟩, Near.refl u c⟩
  | .atom l, t, x, ht, hx => by
    rw [Expr.den] at hx
    rw [Expr.ty] at ht
    cases ht
    exact ⟨.leaf l, |x|, by rw [Expr.runR], by rw [Expr.mag, hx]; rfl, (fun h => by cases h),
      ⟨x, by simp [callR, hx, Except.map], Near.refl u x⟩⟩
  | .const c, t, x, ht, hx => by
    rw [Expr.den] at hx
    cases hx
    rw [Expr.ty] at ht
    cases ht
    exact ⟨.const c, |c|, by rw [Expr.runR], by rw [Expr.mag], (fun h => by cases h), nearV_const (Near.refl u c)⟩
  | .add a b, t, z, ht, hz => by
    rw [Expr.ty] at ht
    rw [Expr.den] at hz
    rcases hta : a.ty with _ | s
    · simp [hta] at ht
    rcases htb : b.ty with _ | s'
    · simp [hta, htb] at ht
    rcases hxa : a.den E with err | x
    · simp [hxa, bind, Except.bind] at hz
    rcases hyb : b.den E with err | y
    · simp [hxa, hyb, bind, Except.bind] at hz
    obtain ⟨o1, X, r1, m1, n1, h1⟩ := run_near hu hfl E a hta hxa
    obtain ⟨o2, Y, r2, m2, n2, h2⟩ := run_near hu hfl E b htb hyb
    obtain ⟨o, ho, hn⟩ := addR_near hu hfl h1 h2
    have ht' : s.join s' = t := by simpa [hta, htb] using ht
    have hz' : x + y = z := by simpa [hxa, hyb, bind, Except.bind] using hz
    subst ht' hz'
    exact ⟨o, X + Y, by simp [Expr.runR, r1, r2, bind, Except.bind, ho], by simp [Expr.mag, m1, m2, bind, Except.bind],
      addR_numIf n1 n2 ho, by rw [Expr.roundings]; exact hn⟩
  | .mul a b, t, z, ht, hz => by
    rw [Expr.ty] at ht
    rw [Expr.den] at hz
    rcases hta : a.ty with _ | s
    · simp [hta] at ht
    rcases htb : b.ty with _ | s'
    · simp [hta, htb] at ht
    rcases hxa : a.den E with err | x
    · simp [hxa, bind, Except.bind] at hz
    rcases hyb : b.den E with err | y
    · simp [hxa, hyb, bind, Except.bind] at hz
    obtain ⟨o1, X, r1, m1, n1, h1⟩ := run_near hu hfl E a hta hxa
    obtain ⟨o2, Y, r2, m2, n2, h2⟩ := run_near hu hfl E b htb hyb
    have hz' : x * y = z := by simpa [hxa, hyb, bind, Except.bind] using hz
    subst hz'
    have key : (s = .num ∨ s' = .num) ∧ s.join s' = t := by
      cases s <;> cases s' <;> simp_all [Ty.join]
    obtain ⟨hs, rfl⟩ := key
    have hmag : (Expr.mul a b).mag E = .ok (X * Y) := by simp [Expr.mag, m1, m2, bind, Except.bind]
    have hrun : ∀ o, mulR fl o1 o2 = .ok o → (Expr.mul a b).runR fl = .ok o := by
      intro o ho
      simp [Expr.runR, r1, r2, bind, Except.bind, ho]
    have hnum : ∀ o, mulR fl o1 o2 = .ok o → NumIf (s.join s') o := by
      intro o ho hj
      obtain ⟨rfl, rfl⟩ := join_num hj
      obtain ⟨c, rfl⟩ := n1 rfl
      obtain ⟨d, rfl⟩ := n2 rfl
      rw [mulR] at ho
      cases ho
      exact ⟨_, rfl⟩
    rcases hs with rfl | rfl
    · obtain ⟨c, rfl⟩ := n1 rfl
      obtain ⟨⟨o, ho, hn⟩, -⟩ := mulR_near hu hfl (show Near u a.roundings c x X from h1) h2
      refine ⟨o, X * Y, hrun o ho, hmag, hnum o ho, ?_⟩
      rw [Expr.roundings, add_comm a.roundings]
      exact hn
    · obtain ⟨c, rfl⟩ := n2 rfl
      obtain ⟨-, ⟨o, ho, hn⟩⟩ := mulR_near hu hfl (show Near u b.roundings c y Y from h2) h1
      refine ⟨o, X * Y, hrun o ho, hmag, hnum o ho, ?_⟩
      rw [Expr.roundings, mul_comm x, mul_comm X]
      exact hn
  | .sum xs, t, z, ht, hz => by
    rw [Expr.ty] at ht
    rw [Expr.den] at hz
    obtain ⟨os, X, r, m, h⟩ := runs_near hu hfl E xs ht hz
    obtain ⟨o, ho, hno, hn⟩ := h (s := .num) (k := 0) (a := num 0) (x := 0) (X := 0) (fun _ => ⟨0, rfl⟩)
      (by simp [NearO, Near])
    refine ⟨o, X, by simp [Expr.runR, r, bind, Except.bind, pySumR, ho], by rw [Expr.mag, m], ?_, ?_⟩
    · have e : Ty.num.join t = t := by cases t <;> rfl
      rwa [e] at hno
    · rw [Expr.roundings]
      simpa using hn
termination_by e => sizeOf e

theorem runs_near (hu : 0 ≤ u) (hfl : Rounding u fl) (E : ℝ) : ∀ (es : List Expr) {t : Ty} {z : ℝ}, Expr.tys es = some t →
    Expr.dens E es = .ok z → ∃ os Z, Expr.runsR fl es = .ok os ∧ Expr.mags E es = .ok Z ∧
      ∀ {s : Ty} {k : ℕ} {a : Obj} {x X : ℝ}, NumIf s a → NearO u fl E k a x X →
        ∃ o, os.foldlM (addR fl) a = .ok o ∧ NumIf (s.join t) o ∧
          NearO u fl E (k + Expr.roundingss es) o (x + z) (X + Z)
  | [], t, z, ht, hz => by
    rw [Expr.tys] at ht
    rw [Expr.dens] at hz
    cases ht
    cases hz
    refine ⟨[], 0, by rw [Expr.runsR], by rw [Expr.mags], fun {s k a x X} hn h => ⟨a, rfl, ?_, ?_⟩⟩
    · have e : s.join .num = s := by cases s <;> rfl
      rwa [e]
    · rw [Expr.roundingss]
      simpa using h
  | e :: es, t, z, ht, hz => by
    rw [Expr.tys] at ht
    rw [Expr.dens] at hz
    rcases hta : e.ty with _ | s1
    · simp [hta] at ht
    rcases htb : Expr.tys es with _ | s2
    · simp [hta, htb] at ht
    rcases hxa : e.den E with err | y
    · simp [hxa, bind, Except.bind] at hz
    rcases hyb : Expr.dens E es with err | w
    · simp [hxa, hyb, bind, Except.bind] at hz
    obtain ⟨o1, Y, r1, m1, n1, h1⟩ := run_near hu hfl E e hta hxa
    obtain ⟨os, W, r2, m2, h2⟩ := runs_near hu hfl E es htb hyb
    have ht' : s1.join s2 = t := by simpa [hta, htb] using ht
    have hz' : y + w = z := by simpa [hxa, hyb, bind, Except.bind] using hz
    subst ht' hz'
    refine ⟨o1 :: os, Y + W, by simp [Expr.runsR, r1, r2, bind, Except.bind], by simp [Expr.mags, m1, m2, bind, Except.bind],
      fun {s k a x X} hna hn => ?_⟩
    obtain ⟨o, ho, hno⟩ := addR_near hu hfl hn h1
    obtain ⟨o', ho', hn', hf⟩ := h2 (addR_numIf hna n1 ho) hno
    refine ⟨o', by simp [List.foldlM, ho, bind, Except.bind, ho'], ?_, ?_⟩
    · have e : (s.join s1).join s2 = s.join (s1.join s2) := by cases s <;> cases s1 <;> cases s2 <;> rfl
      rwa [e] at hn'
    · rw [Expr.roundingss, ← add_assoc x, ← add_assoc X, show k + (e.roundings + 3 + Expr.roundingss es) =
        k + e.roundings + 3 + Expr.roundingss es by omega]
      exact hf
termination_by es => sizeOf es
end

/-- C79: in any arithmetic with a relative error of at most `u` per operation, a composed cross section can be built
and evaluated, and the result differs from the exact value of the expression by at most `(1 + u)^n - 1` times the value of
the expression with absolute values, where `n` is at most three times the number of operations. -/
theorem C79_rounding (hu : 0 ≤ u) (hfl : Rounding u fl) (e : Expr) {t : Ty} (ht : e.ty = some t) {E x : ℝ}
    (hx : e.den E = .ok x) :
    ∃ o v X, e.runR fl = .ok o ∧ valueR fl o E = .ok v ∧ e.mag E = .ok X ∧
      |v - x| ≤ ((1 + u) ^ e.roundings - 1) * X := by
  obtain ⟨o, X, ho, hX, -, hn⟩ := run_near hu hfl E e ht hx
  cases o with
  | num c => exact ⟨_, c, X, ho, rfl, hX, hn.1⟩
  | leaf l =>
    obtain ⟨v, hv, hn⟩ := hn.call hu hfl (by simp)
    exact ⟨_, v, X, ho, by simp [valueR, hv], hX, hn.1⟩
  | const c =>
    obtain ⟨v, hv, hn⟩ := hn.call hu hfl (by simp)
    exact ⟨_, v, X, ho, by simp [valueR, hv], hX, hn.1⟩
  | wsum rs ss =>
    obtain ⟨v, hv, hn⟩ := hn.call hu hfl (by simp)
    exact ⟨_, v, X, ho, by simp [valueR, hv], hX, hn.1⟩

/-- C79: for positive cross sections and factors, where no cancellation occurs, the relative error is at most
`(1 + u)^n - 1`. -/
theorem C79_relative (hu : 0 ≤ u) (hfl : Rounding u fl) (e : Expr) {t : Ty} (ht : e.ty = some t) {E x : ℝ}
    (hx : e.den E = .ok x) (hpos : e.mag E = e.den E) :
    ∃ o v, e.runR fl = .ok o ∧ valueR fl o E = .ok v ∧ |v - x| ≤ ((1 + u) ^ e.roundings - 1) * x := by
  obtain ⟨o, v, X, ho, hv, hX, h⟩ := C79_rounding hu hfl e ht hx
  have : X = x := by
    rw [hX, hx] at hpos
    exact Except.ok.inj hpos
  subst this
  exact ⟨o, v, ho, hv, h⟩

/-- C79: the size of the bound: `n u / (1 - n u)` for `n` roundings (below `4e-13` for 1000 additions in double
precision). -/
theorem C79_bound (hu : 0 ≤ u) (n : ℕ) (hn : n * u < 1) : (1 + u) ^ n - 1 ≤ n * u / (1 - n * u) := by
  have h : (1 + u) ^ n ≤ Real.exp (n * u) := by
    rw [Real.exp_nat_mul]
    gcongr
    linarith [Real.add_one_le_exp u]
  have h2 := Real.exp_bound_div_one_sub_of_interval (x := n * u) (by positivity) hn
  have h3 : (1 : ℝ) - n * u ≠ 0 := by linarith
  have h4 : n * u / (1 - n * u) = 1 / (1 - n * u) - 1 := by field_simp; ring
  linarith

example : ((3000 : ℕ) : ℝ) * (1 / 2 ^ 53) < 1 ∧
    ((3000 : ℕ) : ℝ) * (1 / 2 ^ 53) / (1 - (3000 : ℕ) * (1 / 2 ^ 53)) < 4e-13 := by norm_num

/-- The hypotheses hold for `2 * (a + 3) + sum([a, b])` with a rounding that is not the identity. -/
example : ∃ fl : ℝ → ℝ, Rounding (1 / 2) fl ∧ fl 1 ≠ 1 ∧
    ∀ a b : Leaf, a.eval 1 = .ok 5 → b.eval 1 = .ok 7 →
      let e := Expr.add (.mul (.num 2) (.add (.atom a) (.num 3))) (.sum [.atom a, .atom b])
      e.ty = some .cs ∧ e.den 1 = .ok 28 ∧ e.mag 1 = e.den 1 ∧ e.roundings = 14 := by
  refine ⟨fun x => 3 / 2 * x, fun x => ?_, by norm_num, fun a b ha hb => ?_⟩
  · rw [show (3 / 2 : ℝ) * x - x = 1 / 2 * x by ring, abs_mul, abs_of_pos (by norm_num : (0 : ℝ) < 1 / 2)]
  · refine ⟨rfl, ?_, ?_, rfl⟩
    · simp [Expr.den, Expr.dens, ha, hb, bind, Except.bind]
      norm_num
    · simp [Expr.den, Expr.dens, Expr.mag, Expr.mags, ha, hb, bind, Except.bind, Except.map]

end Ries
