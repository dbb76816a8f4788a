import Verif.Model.Rounded
import Verif.Spec.Rounded
import Mathlib.Tactic.Linarith
import Mathlib.Tactic.Ring
import Mathlib.Tactic.Positivity
import Mathlib.Tactic.GCongr
import Mathlib.Algebra.Order.AbsoluteValue.Basic

/-! # Lemmas on rounded cross-section arithmetic -/

namespace Ries
open Obj

/-! ## Without rounding -/

theorem addR_id (a b : Obj) : addR id a b = add a b := by
  cases a <;> cases b <;> rfl

mutual
theorem mulR_id : ∀ a b : Obj, mulR id a b = mul a b
  | num x, num y => by simp [mulR, mul]
  | num x, wsum rs ss => by rw [mulR, mul, mulLoopR_id (num x) rs ss]
  | num x, leaf l => by simp [mulR, mul]
  | num x, const c => by simp [mulR, mul]
  | wsum rs ss, b => by rw [mulR, mul, mulLoopR_id b rs ss]
  | leaf l, b => by simp [mulR, mul]
  | const c, b => by simp [mulR, mul]
termination_by a b => (sizeOf a + sizeOf b, 0)

theorem mulLoopR_id (other : Obj) : ∀ rs ss : List Obj, mulLoopR id other rs ss = mulLoop other rs ss
  | [], _ => by simp [mulLoopR, mulLoop]
  | _ :: _, [] => by simp [mulLoopR, mulLoop]
  | _ :: rs, s :: ss => by rw [mulLoopR, mulLoop, mulR_id other s, mulLoopR_id other rs ss]
termination_by rs ss => (sizeOf other + sizeOf ss, 1 + rs.length)
end

mutual
theorem callR_id : ∀ (o : Obj) (E : ℝ), callR id o E = call o E
  | num _, _ => by simp [callR, call]
  | leaf _, _ => by simp [callR, call]
  | const _, _ => by simp [callR, call]
  | wsum rs ss, E => by rw [callR, call, callLoopR_id rs ss (num 0) E]

theorem callLoopR_id : ∀ (rs ss : List Obj) (acc : Obj) (E : ℝ),
    callLoopR id rs ss acc E = callLoop rs ss acc E
  | [], _, _, _ => by simp [callLoopR, callLoop]
  | _ :: _, [], _, _ => by simp [callLoopR, callLoop]
  | r :: rs, s :: ss, acc, E => by
    rw [callLoopR, callLoop, callR_id r E]
    simp only [mulR_id, addR_id, callLoopR_id rs ss]
end

theorem valueR_id (o : Obj) (E : ℝ) : valueR id o E = value o E := by
  cases o with
  | num c => rfl
  | leaf l => simp only [valueR, value, callR_id]; rfl
  | const c => simp only [valueR, value, callR_id]; rfl
  | wsum rs ss => simp only [valueR, value, callR_id]; rfl

theorem pySumR_id (xs : List Obj) : pySumR id xs = pySum xs := by
  have : addR id = add := by funext a b; exact addR_id a b
  rw [pySumR, pySum, this]

mutual
theorem runR_id : ∀ e : Expr, e.runR id = e.run
  | .num _ => by simp [Expr.runR, Expr.run]
  | .atom _ => by simp [Expr.runR, Expr.run]
  | .const _ => by simp [Expr.runR, Expr.run]
  | .add a b => by simp only [Expr.runR, Expr.run, runR_id a, runR_id b, addR_id]
  | .mul a b => by simp only [Expr.runR, Expr.run, runR_id a, runR_id b, mulR_id]
  | .sum xs => by simp only [Expr.runR, Expr.run, runsR_id xs, pySumR_id]
theorem runsR_id : ∀ es : List Expr, Expr.runsR id es = Expr.runs es
  | [] => by simp [Expr.runsR, Expr.runs]
  | e :: es => by simp only [Expr.runsR, Expr.runs, runR_id e, runsR_id es]
end

/-! ## Error propagation -/

/-- `x'` approximates `x` with an error of `k` roundings relative to the magnitude `X`. -/
def Near (u : ℝ) (k : ℕ) (x' x X : ℝ) : Prop := |x' - x| ≤ ((1 + u) ^ k - 1) * X ∧ |x| ≤ X

variable {u : ℝ} {fl : ℝ → ℝ}

theorem one_le_pow' (hu : 0 ≤ u) (k : ℕ) : 1 ≤ (1 + u) ^ k := one_le_pow₀ (by linarith)

theorem Near.mono (hu : 0 ≤ u) {j k : ℕ} (h : j ≤ k) {x' x X : ℝ} (hn : Near u j x' x X) : Near u k x' x X := by
  refine ⟨hn.1.trans ?_, hn.2⟩
  have : (1 + u) ^ j ≤ (1 + u) ^ k := pow_le_pow_right₀ (by linarith) h
  have : 0 ≤ X := (abs_nonneg x).trans hn.2
  gcongr

theorem Near.refl (u x : ℝ) : Near u 0 x x |x| := by simp [Near]

theorem Near.round (hu : 0 ≤ u) (hfl : Rounding u fl) {k : ℕ} {x' x X : ℝ} (h : Near u k x' x X) :
    Near u (k + 1) (fl x') x X := by
  refine ⟨?_, h.2⟩
  have h1 := hfl x'
  have h2 := h.1
  have hX : 0 ≤ X := (abs_nonneg x).trans h.2
  have h3 : |x'| ≤ (1 + u) ^ k * X := by
    have : |x'| ≤ |x' - x| + |x| := by simpa using abs_add_le (x' - x) x
    linarith [h.2]
  calc |fl x' - x| ≤ |fl x' - x'| + |x' - x| := abs_sub_le _ _ _
    _ ≤ u * |x'| + ((1 + u) ^ k - 1) * X := add_le_add h1 h2
    _ ≤ u * ((1 + u) ^ k * X) + ((1 + u) ^ k - 1) * X := by gcongr
    _ = ((1 + u) ^ (k + 1) - 1) * X := by ring

theorem Near.add {k : ℕ} {x' x X y' y Y : ℝ} (hx : Near u k x' x X) (hy : Near u k y' y Y) :
    Near u k (x' + y') (x + y) (X + Y) := by
  constructor
  · calc |x' + y' - (x + y)| = |(x' - x) + (y' - y)| := by ring_nf
      _ ≤ |x' - x| + |y' - y| := abs_add_le _ _
      _ ≤ ((1 + u) ^ k - 1) * X + ((1 + u) ^ k - 1) * Y := add_le_add hx.1 hy.1
      _ = ((1 + u) ^ k - 1) * (X + Y) := by ring
  · exact (abs_add_le _ _).trans (add_le_add hx.2 hy.2)

theorem Near.mul (hu : 0 ≤ u) {j k : ℕ} {x' x X y' y Y : ℝ} (hx : Near u j x' x X) (hy : Near u k y' y Y) :
    Near u (j + k) (x' * y') (x * y) (X * Y) := by
  have hX : 0 ≤ X := (abs_nonneg x).trans hx.2
  have hY : 0 ≤ Y := (abs_nonneg y).trans hy.2
  have hj := one_le_pow' hu j
  have hk := one_le_pow' hu k
  have hy' : |y'| ≤ (1 + u) ^ k * Y := by
    have : |y'| ≤ |y' - y| + |y| := by simpa using abs_add_le (y' - y) y
    linarith [hy.1, hy.2]
  constructor
  · calc |x' * y' - x * y| = |(x' - x) * y' + x * (y' - y)| := by ring_nf
      _ ≤ |(x' - x) * y'| + |x * (y' - y)| := abs_add_le _ _
      _ = |x' - x| * |y'| + |x| * |y' - y| := by rw [abs_mul, abs_mul]
      _ ≤ (((1 + u) ^ j - 1) * X) * ((1 + u) ^ k * Y) + X * (((1 + u) ^ k - 1) * Y) := by
        gcongr
        · exact hx.1
        · exact hx.2
        · exact hy.1
      _ = ((1 + u) ^ (j + k) - 1) * (X * Y) := by rw [pow_add]; ring
  · rw [abs_mul]
    gcongr
    · exact hx.2
    · exact hy.2

/-- The result of an evaluation approximates `x`. -/
def NearV (u : ℝ) (fl : ℝ → ℝ) (E : ℝ) (k : ℕ) (o : Obj) (x X : ℝ) : Prop :=
  ∃ v, callR fl o E = .ok (.num v) ∧ Near u k v x X

/-- Entries of a weighted sum and their exact weighted sum; every entry takes at most `B` roundings. -/
inductive NearL (u : ℝ) (fl : ℝ → ℝ) (E : ℝ) (B : ℕ) : List Obj → List Obj → ℝ → ℝ → Prop
  | nil (ss : List Obj) : NearL u fl E B [] ss 0 0
  | cons {r : Obj} {rs ss : List Obj} {j k : ℕ} {s' s S x X y Y : ℝ} (hr : NearV u fl E k r x X)
      (hs : Near u j s' s S) (hb : j + k + 1 ≤ B) (h : NearL u fl E B rs ss y Y) :
      NearL u fl E B (r :: rs) (num s' :: ss) (s * x + y) (S * X + Y)

/-- An object approximates the exact value `x` with at most `k` roundings. -/
def NearO (u : ℝ) (fl : ℝ → ℝ) (E : ℝ) (k : ℕ) (o : Obj) (x X : ℝ) : Prop :=
  match o with
  | num c => Near u k c x X
  | wsum rs ss => ∃ B, B + rs.length ≤ k ∧ NearL u fl E B rs ss x X
  | o => NearV u fl E k o x X

theorem NearL.mono {E : ℝ} {B B' : ℕ} (h : B ≤ B') {rs ss : List Obj} {x X : ℝ} (hn : NearL u fl E B rs ss x X) :
    NearL u fl E B' rs ss x X := by
  induction hn with
  | nil ss => exact .nil ss
  | cons hr hs hb _ ih => exact .cons hr hs (hb.trans h) ih

theorem NearL.length_le {E : ℝ} {B : ℕ} {rs ss : List Obj} {x X : ℝ} (hn : NearL u fl E B rs ss x X) :
    rs.length ≤ ss.length := by
  induction hn with
  | nil ss => simp
  | cons hr hs hb _ ih => simpa using ih

theorem NearL.loop (hu : 0 ≤ u) (hfl : Rounding u fl) {E : ℝ} {B : ℕ} {rs ss : List Obj} {x X : ℝ}
    (hn : NearL u fl E B rs ss x X) {i : ℕ} {a' a A : ℝ} (ha : Near u (B + i) a' a A) :
    ∃ v, callLoopR fl rs ss (num a') E = .ok (.num v) ∧ Near u (B + (i + rs.length)) v (a + x) (A + X) := by
  induction hn generalizing i a' a A with
  | nil ss => exact ⟨a', by simp [callLoopR], by simpa using ha⟩
  | @cons r rs ss j k s' s S x X y Y hr hs hb _ ih =>
    obtain ⟨v, hv, hvn⟩ := hr
    have hp : Near u (B + i) (fl (s' * v)) (s * x) (S * X) :=
      ((hs.mul hu hvn).round hu hfl).mono hu (by omega)
    have hacc := (ha.add hp).round hu hfl
    obtain ⟨w, hw, hwn⟩ := ih (i := i + 1) hacc
    refine ⟨w, ?_, ?_⟩
    · simp only [callLoopR, hv, bind, Except.bind, mulR, addR]
      exact hw
    · have e : B + (i + 1 + rs.length) = B + (i + (r :: rs).length) := by simp; omega
      rw [e] at hwn
      simpa [add_assoc] using hwn

theorem NearO.call (hu : 0 ≤ u) (hfl : Rounding u fl) {E : ℝ} {k : ℕ} {o : Obj} {x X : ℝ}
    (h : NearO u fl E k o x X) (hnum : ∀ c, o ≠ num c) : NearV u fl E k o x X := by
  cases o with
  | num c => exact absurd rfl (hnum c)
  | leaf l => exact h
  | const c => exact h
  | wsum rs ss =>
    obtain ⟨B, hB, hl⟩ := h
    have h0 : Near u (B + 0) 0 0 0 := by simp [Near]
    obtain ⟨v, hv, hn⟩ := hl.loop hu hfl h0
    refine ⟨v, by simpa [callR] using hv, ?_⟩
    rw [zero_add, zero_add, zero_add] at hn
    exact hn.mono hu hB

theorem NearO.mono (hu : 0 ≤ u) {E : ℝ} {j k : ℕ} (h : j ≤ k) {o : Obj} {x X : ℝ}
    (hn : NearO u fl E j o x X) : NearO u fl E k o x X := by
  cases o with
  | num c => exact Near.mono hu h hn
  | leaf l => obtain ⟨v, hv, hn⟩ := hn; exact ⟨v, hv, hn.mono hu h⟩
  | const c => obtain ⟨v, hv, hn⟩ := hn; exact ⟨v, hv, hn.mono hu h⟩
  | wsum rs ss => obtain ⟨B, hB, hl⟩ := hn; exact ⟨B, hB.trans h, hl⟩

theorem nearV_const {E : ℝ} {k : ℕ} {c x X : ℝ} (h : Near u k c x X) : NearV u fl E k (const c) x X :=
  ⟨c, by simp [callR], h⟩

theorem near_one (u : ℝ) : Near u 0 1 1 1 := by simp [Near]

theorem NearL.single {E : ℝ} {j k : ℕ} {r : Obj} {s' s S x X : ℝ} (hr : NearV u fl E k r x X)
    (hs : Near u j s' s S) : NearL u fl E (j + k + 1) [r] [num s'] (s * x) (S * X) := by
  simpa using NearL.cons hr hs le_rfl (.nil [])

theorem NearL.append {E : ℝ} {B : ℕ} {rs ss rs2 ss2 : List Obj} {x X y Y : ℝ}
    (h : NearL u fl E B rs ss x X) (h2 : NearL u fl E B rs2 ss2 y Y) :
    NearL u fl E B (rs ++ rs2) (ss.take rs.length ++ ss2) (x + y) (X + Y) := by
  induction h with
  | nil ss => simpa using h2
  | cons hr hs hb _ ih => simpa [add_assoc] using NearL.cons hr hs hb ih

theorem NearL.take {E : ℝ} {B : ℕ} {rs ss : List Obj} {x X : ℝ}
    (h : NearL u fl E B rs ss x X) : NearL u fl E B rs (ss.take rs.length) x X := by
  induction h with
  | nil ss => exact .nil _
  | cons hr hs hb _ ih => simpa using NearL.cons hr hs hb ih

/-- a constituent as it enters a list of reactions: a number becomes a constant -/
def asReaction : Obj → Obj
  | num c => const c
  | o => o

theorem NearO.reaction (hu : 0 ≤ u) (hfl : Rounding u fl) {E : ℝ} {k : ℕ} {o : Obj} {x X : ℝ}
    (h : NearO u fl E k o x X) : NearV u fl E k (asReaction o) x X := by
  cases o with
  | num c => exact nearV_const h
  | leaf l => exact h
  | const c => exact h
  | wsum rs ss => exact NearO.call hu hfl h (fun c h => by cases h)

theorem csAdd_near (hu : 0 ≤ u) (hfl : Rounding u fl) {E : ℝ} {j k : ℕ} {a b : Obj} {x X y Y : ℝ}
    (ha : NearV u fl E j a x X) (hb : NearO u fl E k b y Y) :
    NearO u fl E (j + k + 3) (csAdd a b) (x + y) (X + Y) := by
  have e : csAdd a b = wsum [a, asReaction b] [num 1, num 1] := by cases b <;> rfl
  rw [e]
  refine ⟨j + k + 1, by simp, ?_⟩
  simpa using NearL.cons ha (near_one u) (by omega)
    (NearL.cons (hb.reaction hu hfl) (near_one u) (by omega) (.nil (B := j + k + 1) []))

theorem wsumAdd_near (hu : 0 ≤ u) (hfl : Rounding u fl) {E : ℝ} {j k : ℕ} {rs ss : List Obj} {b : Obj} {x X y Y : ℝ}
    (ha : NearO u fl E j (wsum rs ss) x X) (hb : NearO u fl E k b y Y) :
    ∃ o, wsumAdd rs ss b = .ok o ∧ (∀ c, o ≠ num c) ∧ NearO u fl E (j + k + 3) o (x + y) (X + Y) := by
  obtain ⟨B, hB, hl⟩ := ha
  have hp : ∀ {rs ss : List Obj}, rs.length ≤ ss.length → pairScales rs ss = .ok (ss.take rs.length) := by
    intro rs
    induction rs with
    | nil => simp [pairScales]
    | cons r rs ih =>
      intro ss h
      cases ss with
      | nil => simp at h
      | cons s ss => simp [pairScales, ih (by simpa using h), Except.map]
  have h1 : ∀ o, asReaction b = o → NearO u fl E (j + k + 3)
      (wsum (rs ++ [o]) (ss.take rs.length ++ [num 1])) (x + y) (X + Y) := by
    rintro o rfl
    refine ⟨B + (k + 1), by simp; omega, ?_⟩
    have := (NearL.single (hb.reaction hu hfl) (near_one u)).mono (B' := B + (k + 1)) (by omega)
    rw [one_mul, one_mul] at this
    exact (hl.mono (by omega)).append this
  rw [wsumAdd, hp hl.length_le]
  cases b with
  | num c => exact ⟨_, rfl, by simp, h1 _ rfl⟩
  | leaf l => exact ⟨_, rfl, by simp, h1 _ rfl⟩
  | const c => exact ⟨_, rfl, by simp, h1 _ rfl⟩
  | wsum rs2 ss2 =>
    obtain ⟨B2, hB2, hl2⟩ := hb
    refine ⟨wsum (rs ++ rs2) (ss.take rs.length ++ ss2.take rs2.length), ?_, by simp,
      B + B2, by simp; omega, (hl.mono (by omega)).append (hl2.take.mono (by omega))⟩
    simp [bind, Except.bind, hp hl2.length_le]

theorem addR_near (hu : 0 ≤ u) (hfl : Rounding u fl) {E : ℝ} {j k : ℕ} {a b : Obj} {x X y Y : ℝ}
    (ha : NearO u fl E j a x X) (hb : NearO u fl E k b y Y) :
    ∃ o, addR fl a b = .ok o ∧ NearO u fl E (j + k + 3) o (x + y) (X + Y) := by
  cases a with
  | num c =>
    cases b with
    | num d =>
      refine ⟨_, rfl, ?_⟩
      have h1 : Near u (j + k) c x X := Near.mono hu (by omega) ha
      have h2 : Near u (j + k) d y Y := Near.mono hu (by omega) hb
      exact ((h1.add h2).round hu hfl).mono hu (by omega)
    | leaf l =>
      refine ⟨_, rfl, ?_⟩
      have := csAdd_near hu hfl (b := num c) hb ha
      rwa [add_comm y, add_comm Y, add_comm k] at this
    | const d =>
      refine ⟨_, rfl, ?_⟩
      have := csAdd_near hu hfl (b := num c) hb ha
      rwa [add_comm y, add_comm Y, add_comm k] at this
    | wsum rs ss =>
      obtain ⟨o, ho, -, hn⟩ := wsumAdd_near hu hfl (b := num c) hb ha
      rw [add_comm y, add_comm Y, add_comm k] at hn
      exact ⟨o, ho, hn⟩
  | leaf l => exact ⟨_, by cases b <;> rfl, csAdd_near hu hfl ha hb⟩
  | const c => exact ⟨_, by cases b <;> rfl, csAdd_near hu hfl ha hb⟩
  | wsum rs ss =>
    obtain ⟨o, ho, -, hn⟩ := wsumAdd_near hu hfl ha hb
    exact ⟨o, by cases b <;> exact ho, hn⟩

theorem mulLoopR_near (hu : 0 ≤ u) (hfl : Rounding u fl) {E : ℝ} {k B : ℕ} {rs ss : List Obj} {c y Y x X : ℝ}
    (hc : Near u k c y Y) (hl : NearL u fl E B rs ss x X) :
    ∃ ss', mulLoopR fl (num c) rs ss = .ok ss' ∧ NearL u fl E (B + k + 1) rs ss' (y * x) (Y * X) := by
  induction hl with
  | nil ss => exact ⟨[], by simp [mulLoopR], by simpa using NearL.nil (B := B + k + 1) []⟩
  | @cons r rs ss j i s' s S x X z Z hr hs hb _ ih =>
    obtain ⟨ss', h1, h2⟩ := ih
    refine ⟨num (fl (c * s')) :: ss', by simp [mulLoopR, mulR, h1, bind, Except.bind], ?_⟩
    have := NearL.cons hr ((hc.mul hu hs).round hu hfl) (by omega) h2
    rwa [show y * (s * x + z) = y * s * x + y * z by ring, show Y * (S * X + Z) = Y * S * X + Y * Z by ring]

theorem mulR_near (hu : 0 ≤ u) (hfl : Rounding u fl) {E : ℝ} {j k : ℕ} {a : Obj} {c y Y x X : ℝ}
    (hc : Near u k c y Y) (ha : NearO u fl E j a x X) :
    (∃ o, mulR fl (num c) a = .ok o ∧ NearO u fl E (j + k + 2) o (y * x) (Y * X)) ∧
      ∃ o, mulR fl a (num c) = .ok o ∧ NearO u fl E (j + k + 2) o (y * x) (Y * X) := by
  have hsingle : NearV u fl E j a x X → NearO u fl E (j + k + 2) (wsum [a] [num c]) (y * x) (Y * X) := by
    intro h
    exact ⟨j + k + 1, by simp, (NearL.single h hc).mono (by omega)⟩
  cases a with
  | num d =>
    have h1 := (hc.mul hu (show Near u j d x X from ha)).round hu hfl
    refine ⟨⟨num (fl (c * d)), by simp [mulR], h1.mono hu (by omega)⟩, ⟨num (fl (d * c)), by simp [mulR], ?_⟩⟩
    rw [mul_comm d c]
    exact h1.mono hu (by omega)
  | leaf l => exact ⟨⟨_, by rw [mulR], hsingle ha⟩, ⟨_, by rw [mulR], hsingle ha⟩⟩
  | const d => exact ⟨⟨_, by rw [mulR], hsingle ha⟩, ⟨_, by rw [mulR], hsingle ha⟩⟩
  | wsum rs ss =>
    obtain ⟨B, hB, hl⟩ := ha
    obtain ⟨ss', h1, h2⟩ := mulLoopR_near hu hfl hc hl
    refine ⟨⟨wsum rs ss', by simp [mulR, h1, Except.map], B + k + 1, by omega, h2⟩,
      ⟨wsum rs ss', by simp [mulR, h1, Except.map], B + k + 1, by omega, h2⟩⟩

end Ries
