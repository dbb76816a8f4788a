import Verif.Spec.ExponentRange
import Verif.Lemmas.RoundedReso
import Mathlib.Analysis.Complex.ExponentialBounds

/-! # Magnitudes of intermediate results -/

namespace Ries

open KN

variable {u : ℝ} {A : RArith}

theorem Mag.zero (a b : ℤ) : Mag a b 0 := Or.inl rfl

theorem Mag.mono {a b a' b' : ℤ} {x : ℝ} (h : Mag a b x) (ha : a' ≤ a) (hb : b ≤ b') : Mag a' b' x := by
  rcases h with h | ⟨h1, h2⟩
  · exact Or.inl h
  · exact Or.inr ⟨(zpow_le_zpow_right₀ (by norm_num) ha).trans h1, h2.trans (zpow_le_zpow_right₀ (by norm_num) hb)⟩

theorem Mag.neg {a b : ℤ} {x : ℝ} (h : Mag a b x) : Mag a b (-x) := by
  simpa [Mag, abs_neg] using h

theorem Mag.mul {a b c d : ℤ} {x y : ℝ} (h : Mag a b x) (h' : Mag c d y) : Mag (a + c) (b + d) (x * y) := by
  rcases h with rfl | ⟨h1, h2⟩
  · left; simp
  rcases h' with rfl | ⟨h3, h4⟩
  · left; simp
  right
  rw [abs_mul, zpow_add₀ (by norm_num), zpow_add₀ (by norm_num)]
  exact ⟨mul_le_mul h1 h3 (by positivity) (abs_nonneg _), mul_le_mul h2 h4 (abs_nonneg _) (by positivity)⟩

theorem Mag.div {a b c d : ℤ} {x y : ℝ} (h : Mag a b x) (h' : Mag c d y) : Mag (a - d) (b - c) (x / y) := by
  rcases h with rfl | ⟨h1, h2⟩
  · left; simp
  rcases h' with rfl | ⟨h3, h4⟩
  · left; simp
  right
  have hy : 0 < |y| := lt_of_lt_of_le (by positivity) h3
  rw [abs_div, zpow_sub₀ (by norm_num), zpow_sub₀ (by norm_num)]
  exact ⟨div_le_div₀ (abs_nonneg _) h1 hy h4, div_le_div₀ (by positivity) h2 (by positivity) h3⟩

theorem Mag.sq {a b : ℤ} {x : ℝ} (h : Mag a b x) : Mag (a + a) (b + b) (x ^ 2) := by rw [pow_two]; exact h.mul h

theorem Mag.add {a b c d : ℤ} {x y : ℝ} (h : Mag a b x) (h' : Mag c d y) (hx : 0 ≤ x) (hy : 0 ≤ y) :
    Mag (min a c) (max b d + 1) (x + y) := by
  have l1 : (2 : ℝ) ^ min a c ≤ 2 ^ a := zpow_le_zpow_right₀ (by norm_num) (min_le_left _ _)
  have l2 : (2 : ℝ) ^ min a c ≤ 2 ^ c := zpow_le_zpow_right₀ (by norm_num) (min_le_right _ _)
  have l3 : (2 : ℝ) ^ b ≤ 2 ^ max b d := zpow_le_zpow_right₀ (by norm_num) (le_max_left _ _)
  have l4 : (2 : ℝ) ^ d ≤ 2 ^ max b d := zpow_le_zpow_right₀ (by norm_num) (le_max_right _ _)
  have e : (2 : ℝ) ^ (max b d + 1) = 2 * 2 ^ max b d := by rw [zpow_add₀ (by norm_num), zpow_one, mul_comm]
  have p : (0 : ℝ) < 2 ^ max b d := by positivity
  unfold Mag at *
  rw [abs_of_nonneg hx] at h
  rw [abs_of_nonneg hy] at h'
  rw [abs_of_nonneg (add_nonneg hx hy), e]
  rcases h with rfl | ⟨h1, h2⟩
  · rcases h' with rfl | ⟨h3, h4⟩
    · left; simp
    · right; constructor <;> linarith
  · right
    rcases h' with rfl | ⟨h3, h4⟩ <;> constructor <;> linarith

theorem Mag.sqrt {a b : ℤ} {x : ℝ} (h : Mag (2 * a) (2 * b) x) (hx : 0 ≤ x) : Mag a b (Real.sqrt x) := by
  rcases h with rfl | ⟨h1, h2⟩
  · left; simp
  right
  rw [abs_of_nonneg (Real.sqrt_nonneg x)]
  rw [abs_of_nonneg hx] at h1 h2
  have e : ∀ n : ℤ, (2 : ℝ) ^ (2 * n) = (2 ^ n) ^ 2 := fun n => by rw [mul_comm, zpow_mul]; norm_cast
  rw [e] at h1 h2
  exact ⟨Real.le_sqrt_of_sq_le h1, by rw [Real.sqrt_le_left (by positivity)]; exact h2⟩

theorem Mag.of_bounds {a b : ℤ} {x : ℝ} (h1 : (2 : ℝ) ^ a ≤ x) (h2 : x ≤ 2 ^ b) : Mag a b x := by
  have : 0 ≤ x := le_trans (by positivity) h1
  exact Or.inr (by rw [abs_of_nonneg this]; exact ⟨h1, h2⟩)

theorem Mag.close {a b : ℤ} {x y : ℝ} (h : Mag a b x) (hxy : |y - x| ≤ 1 / 2 * |x|) : Mag (a - 1) (b + 1) y := by
  rcases h with rfl | ⟨h1, h2⟩
  · left
    simpa using hxy
  right
  have e1 : (2 : ℝ) ^ (a - 1) = 2 ^ a / 2 := by rw [zpow_sub₀ (by norm_num), zpow_one]
  have e2 : (2 : ℝ) ^ (b + 1) = 2 * 2 ^ b := by rw [zpow_add₀ (by norm_num), zpow_one, mul_comm]
  have l := abs_sub_abs_le_abs_sub x y
  have r := abs_sub_abs_le_abs_sub y x
  rw [abs_sub_comm x y] at l
  rw [e1, e2]
  constructor <;> linarith [abs_nonneg x]

theorem Mag.normal {a b : ℤ} {x : ℝ} (h : Mag a b x) (ha : -1022 ≤ a) (hb : b ≤ 1023) : Normal x := h.mono ha hb

/-- the operations of `A`, without rounding if the exact result is out of range -/
noncomputable def RArith.complete (A : RArith) : RArith :=
  open Classical in
  { fl := fun x => if Normal x then A.fl x else x
    sq := fun x => if Normal (x ^ 2) then A.sq x else x ^ 2
    exp := fun x => if Normal (Real.exp x) then A.exp x else Real.exp x
    sqrt := fun x => if Normal x then A.sqrt x else Real.sqrt x }

theorem RArith.complete_accurate (hA : A.AccurateInRange u) (hu : 0 ≤ u) : A.complete.Accurate u where
  fl x := by
    by_cases h : Normal x
    · simpa [RArith.complete, h] using hA.fl x h
    · simp [RArith.complete, h]; positivity
  sq x := by
    by_cases h : Normal (x ^ 2)
    · simpa [RArith.complete, h] using hA.sq x h
    · simp [RArith.complete, h]; positivity
  exp x := by
    by_cases h : Normal (Real.exp x)
    · simpa [RArith.complete, h] using hA.exp x h
    · simp [RArith.complete, h]; positivity
  sqrt x hx := by
    by_cases h : Normal x
    · simpa [RArith.complete, h] using hA.sqrt x hx h
    · simp [RArith.complete, h]; positivity

/-- the result of a computation that stays in the range: the same with both arithmetics, zero or between `2 ^ a` and `2 ^ b` -/
def Same (a b : ℤ) (x y : ℝ) : Prop := x = y ∧ Mag a b y

theorem Same.refl {a b : ℤ} {x : ℝ} (h : Mag a b x) : Same a b x x := ⟨rfl, h⟩

theorem Same.mono {a b a' b' : ℤ} {x y : ℝ} (h : Same a b x y) (ha : a' ≤ a) (hb : b ≤ b') : Same a' b' x y := ⟨h.1, h.2.mono ha hb⟩

theorem Same.neg {a b : ℤ} {x y : ℝ} (h : Same a b x y) : Same a b (-x) (-y) := ⟨by rw [h.1], h.2.neg⟩

theorem Same.mul {a b c d : ℤ} {x y x' y' : ℝ} (h : Same a b x x') (h' : Same c d y y') : Same (a + c) (b + d) (x * y) (x' * y') :=
  ⟨by rw [h.1, h'.1], h.2.mul h'.2⟩

theorem Same.div {a b c d : ℤ} {x y x' y' : ℝ} (h : Same a b x x') (h' : Same c d y y') : Same (a - d) (b - c) (x / y) (x' / y') :=
  ⟨by rw [h.1, h'.1], h.2.div h'.2⟩

theorem Same.add {a b c d : ℤ} {x y x' y' : ℝ} (h : Same a b x x') (h' : Same c d y y') (hx : 0 ≤ x') (hy : 0 ≤ y') :
    Same (min a c) (max b d + 1) (x + y) (x' + y') := ⟨by rw [h.1, h'.1], h.2.add h'.2 hx hy⟩

section
variable (hA : A.AccurateInRange u) (hu1 : u ≤ 1 / 100)
include hA hu1

theorem Same.fl {a b : ℤ} {x y : ℝ} (h : Same a b x y) (ha : -1022 ≤ a) (hb : b ≤ 1023) :
    Same (a - 1) (b + 1) (A.fl x) (A.complete.fl y) := by
  obtain ⟨rfl, h⟩ := h
  have hn := h.normal ha hb
  have e : A.complete.fl x = A.fl x := if_pos hn
  rw [e]
  refine ⟨rfl, h.close ((hA.fl x hn).trans (mul_le_mul_of_nonneg_right (by linarith) (abs_nonneg _)))⟩

theorem Same.rsq {a b : ℤ} {x y : ℝ} (h : Same a b x y) (ha : -1022 ≤ a + a) (hb : b + b ≤ 1023) :
    Same (a + a - 1) (b + b + 1) (A.sq x) (A.complete.sq y) := by
  obtain ⟨rfl, h⟩ := h
  have hn := h.sq.normal ha hb
  have e : A.complete.sq x = A.sq x := if_pos hn
  rw [e]
  refine ⟨rfl, h.sq.close ((hA.sq x hn).trans (mul_le_mul_of_nonneg_right (by linarith) (abs_nonneg _)))⟩

theorem Same.rexp {a b : ℤ} {x y : ℝ} (h : x = y) (hm : Mag a b (Real.exp y)) (ha : -1022 ≤ a) (hb : b ≤ 1023) :
    Same (a - 1) (b + 1) (A.exp x) (A.complete.exp y) := by
  obtain rfl := h
  have hn := hm.normal ha hb
  have e : A.complete.exp x = A.exp x := if_pos hn
  rw [e]
  refine ⟨rfl, hm.close ((hA.exp x hn).trans (mul_le_mul_of_nonneg_right (by linarith) (abs_nonneg _)))⟩

theorem Same.rsqrt {a b : ℤ} {x y : ℝ} (h : Same (2 * a) (2 * b) x y) (hy : 0 ≤ y) (ha : -1022 ≤ 2 * a) (hb : 2 * b ≤ 1023) :
    Same (a - 1) (b + 1) (A.sqrt x) (A.complete.sqrt y) := by
  obtain ⟨rfl, h⟩ := h
  have hn := h.normal ha hb
  have e : A.complete.sqrt x = A.sqrt x := if_pos hn
  rw [e]
  refine ⟨rfl, (h.sqrt hy).close ((hA.sqrt x hy hn).trans (mul_le_mul_of_nonneg_right (by linarith) (abs_nonneg _)))⟩

end

theorem Same.pi : Same 1 2 Real.pi Real.pi :=
  .refl (Mag.of_bounds (by rw [zpow_one]; exact Real.two_le_pi) ((Real.pi_le_four).trans (by norm_num)))

theorem Same.num {x : ℝ} (a b : ℤ) (h1 : (2 : ℝ) ^ a ≤ x) (h2 : x ≤ 2 ^ b) : Same a b x x := .refl (Mag.of_bounds h1 h2)

theorem Same.intCast {n : ℤ} {b : ℕ} (hb : |n| ≤ 2 ^ b) : Same 0 b (n : ℝ) (n : ℝ) := by
  refine .refl ?_
  rcases eq_or_ne n 0 with rfl | h
  · exact Or.inl (by simp)
  · refine Or.inr ⟨?_, ?_⟩
    · rw [zpow_zero]; exact_mod_cast Int.one_le_abs h
    · rw [zpow_natCast]; exact_mod_cast hb

section
variable (hA : A.AccurateInRange u) (hu : 0 ≤ u) (hu1 : u ≤ 1 / 2 ^ 21)
include hA hu hu1

theorem RArith.sum_same (l : List ℝ) (hl : ∀ x ∈ l, 0 ≤ x ∧ Mag (-100) 100 x) (hn : l.length ≤ 2 ^ 20) :
    Same (-101) 121 (A.sum l) (A.complete.sum l) ∧ 0 ≤ A.complete.sum l := by
  have hu1' : u ≤ 1 / 100 := hu1.trans (by norm_num)
  have hu0 : u < 1 := by linarith
  suffices h : ∀ (l : List ℝ) (n : ℕ) (s : ℝ), (∀ x ∈ l, 0 ≤ x ∧ Mag (-100) 100 x) → n + l.length ≤ 2 ^ 20 → 0 ≤ s →
      (s = 0 ∨ (2 : ℝ) ^ (-100 : ℤ) * (1 - n * u) ≤ s) → s * (1 - n * u) ≤ n * 2 ^ (100 : ℤ) →
      Same (-101) 121 (l.foldl (fun s x => A.fl (s + x)) s) (l.foldl (fun s x => A.complete.fl (s + x)) s) ∧
        0 ≤ l.foldl (fun s x => A.complete.fl (s + x)) s by
    exact h l 0 0 hl (by simpa using hn) le_rfl (Or.inl rfl) (by simp)
  have hnu : ∀ n : ℕ, n ≤ 2 ^ 20 → (n : ℝ) * u ≤ 1 / 2 := by
    intro n hn
    have : (n : ℝ) ≤ 2 ^ 20 := by exact_mod_cast hn
    calc (n : ℝ) * u ≤ 2 ^ 20 * (1 / 2 ^ 21) := mul_le_mul this hu1 hu (by norm_num)
      _ = 1 / 2 := by norm_num
  have mag : ∀ (n : ℕ) (s : ℝ), n ≤ 2 ^ 20 → 0 ≤ s → (s = 0 ∨ (2 : ℝ) ^ (-100 : ℤ) * (1 - n * u) ≤ s) →
      s * (1 - n * u) ≤ n * 2 ^ (100 : ℤ) → Mag (-101) 121 s := by
    intro n s hn h0 h1 h2
    have h3 := hnu n hn
    rcases h1 with h1 | h1
    · exact Or.inl h1
    refine .of_bounds ?_ ?_
    · refine le_trans ?_ h1
      rw [show (-101 : ℤ) = -100 - 1 by norm_num, zpow_sub₀ (by norm_num), zpow_one, div_eq_mul_inv]
      exact mul_le_mul_of_nonneg_left (by norm_num; linarith) (by positivity)
    · have h4 : s * (1 / 2) ≤ s * (1 - n * u) := mul_le_mul_of_nonneg_left (by linarith) h0
      have h5 : (n : ℝ) * 2 ^ (100 : ℤ) ≤ 2 ^ 20 * 2 ^ (100 : ℤ) := mul_le_mul_of_nonneg_right (by exact_mod_cast hn) (by positivity)
      have : (2 : ℝ) ^ (121 : ℤ) = 2 * (2 ^ 20 * 2 ^ (100 : ℤ)) := by norm_num
      linarith
  intro l
  induction l with
  | nil =>
    intro n s _ hn h0 h1 h2
    exact ⟨.refl (mag n s (by simpa using hn) h0 h1 h2), h0⟩
  | cons x l ih =>
    intro n s hl hn h0 h1 h2
    rw [List.length_cons] at hn
    obtain ⟨hx0, hx⟩ := hl x (by simp)
    have hs := mag n s (by omega) h0 h1 h2
    have hsx : Mag (-101) 122 (s + x) := (hs.add hx h0 hx0).mono (by norm_num) (by norm_num)
    have hnorm := hsx.normal (by norm_num) (by norm_num)
    have e : A.complete.fl (s + x) = A.fl (s + x) := if_pos hnorm
    have herr := hA.fl _ hnorm
    rw [abs_of_nonneg (add_nonneg h0 hx0)] at herr
    obtain ⟨e1, e2⟩ := _root_.abs_le.1 herr
    rw [List.foldl_cons, List.foldl_cons, e]
    have hsx0 := add_nonneg h0 hx0
    have hn1 := hnu n (by omega)
    have hnn : (0 : ℝ) ≤ n := Nat.cast_nonneg n
    have hnu0 : 0 ≤ n * u := by positivity
    have hp : (0 : ℝ) < 2 ^ (-100 : ℤ) := by positivity
    refine ih (n + 1) _ (fun y hy => hl y (by simp [hy])) (by omega) (by nlinarith) ?_ ?_
    · by_cases hz : s + x = 0
      · left
        have : |A.fl (s + x) - (s + x)| ≤ 0 := by rw [hz] at herr ⊢; simpa using herr
        rw [hz] at this ⊢
        simpa using this
      · right
        have hlow : (2 : ℝ) ^ (-100 : ℤ) * (1 - n * u) ≤ s + x := by
          rcases h1 with h1 | h1
          · rcases hx with hx | ⟨hx, -⟩
            · exact absurd (by rw [h1, hx]; norm_num) hz
            · rw [abs_of_nonneg hx0] at hx
              nlinarith
          · linarith
        push_cast
        have : (2 : ℝ) ^ (-100 : ℤ) * (1 - (n + 1) * u) ≤ 2 ^ (-100 : ℤ) * (1 - n * u) * (1 - u) := by
          have : (2 : ℝ) ^ (-100 : ℤ) * (1 - n * u) * (1 - u) - 2 ^ (-100 : ℤ) * (1 - (n + 1) * u) = 2 ^ (-100 : ℤ) * (n * u * u) := by ring
          have h5 : 0 ≤ (2 : ℝ) ^ (-100 : ℤ) * (n * u * u) := by positivity
          linarith
        have h6 : (2 : ℝ) ^ (-100 : ℤ) * (1 - n * u) * (1 - u) ≤ (s + x) * (1 - u) := mul_le_mul_of_nonneg_right hlow (by linarith)
        linarith
    · have hxle : x ≤ 2 ^ (100 : ℤ) := by
        rcases hx with hx | ⟨-, hx⟩
        · rw [hx]; positivity
        · rwa [abs_of_nonneg hx0] at hx
      push_cast
      have h7 : A.fl (s + x) * (1 - (n + 1) * u) ≤ (s + x) * (1 + u) * (1 - (n + 1) * u) := by
        have := hnu (n + 1) (by omega)
        push_cast at this
        exact mul_le_mul_of_nonneg_right (by linarith) (by linarith)
      have h8 : (s + x) * (1 + u) * (1 - (n + 1) * u) ≤ (s + x) * (1 - n * u) := by
        have : (s + x) * (1 - n * u) - (s + x) * (1 + u) * (1 - (n + 1) * u) = (s + x) * ((n + 1) * u * u) := by ring
        have h5 : 0 ≤ (s + x) * ((n + 1) * u * u) := by positivity
        linarith
      have h9 : x * (1 - n * u) ≤ 2 ^ (100 : ℤ) := by nlinarith
      linarith

end

/-- equal results of two computations that may raise an exception, zero or between `2 ^ a` and `2 ^ b` -/
def SameE (a b : ℤ) (x y : Except Err ℝ) : Prop := x = y ∧ ∀ v, y = .ok v → Mag a b v

theorem Same.ok {a b : ℤ} {x y : ℝ} (h : Same a b x y) : SameE a b (.ok x) (.ok y) :=
  ⟨by rw [h.1], fun v hv => by cases hv; exact h.2⟩

theorem Same.rdiv (hA : A.AccurateInRange u) (hu1 : u ≤ 1 / 100) {a b c d : ℤ} {x y x' y' : ℝ} (h : Same a b x x') (h' : Same c d y y')
    (ha : -1022 ≤ a - d) (hb : b - c ≤ 1023) : SameE (a - d - 1) (b - c + 1) (A.div x y) (A.complete.div x' y') := by
  have := (h.div h').fl hA hu1 ha hb
  unfold RArith.div
  obtain ⟨-, -⟩ := h
  rw [h'.1]
  by_cases hy : y' = 0
  · rw [if_pos hy, if_pos hy]
    exact ⟨rfl, fun v hv => by simp at hv⟩
  · rw [if_neg hy, if_neg hy]
    rw [h'.1] at this
    exact this.ok

theorem SameE.cases {a b : ℤ} {x y : Except Err ℝ} (h : SameE a b x y) :
    (∃ e, x = .error e ∧ y = .error e) ∨ ∃ v, x = .ok v ∧ y = .ok v ∧ Same a b v v := by
  obtain ⟨rfl, h⟩ := h
  cases x with
  | error e => exact Or.inl ⟨e, rfl, rfl⟩
  | ok v => exact Or.inr ⟨v, rfl, rfl, .refl (h v rfl)⟩

theorem Mag.one_add {a b : ℤ} {x : ℝ} (h : Mag a b x) (hx : 0 ≤ x) (hb : 0 ≤ b) : Mag 0 (b + 1) (1 + x) := by
  have h1 : (1 : ℝ) ≤ 2 ^ b := one_le_zpow₀ (by norm_num) hb
  refine .of_bounds (by rw [zpow_zero]; linarith) ?_
  have e2 : (2 : ℝ) ^ (b + 1) = 2 * 2 ^ b := by rw [zpow_add₀ (by norm_num), zpow_one, mul_comm]
  have : x ≤ 2 ^ b := by
    rcases h with h | ⟨-, h⟩
    · rw [h]; positivity
    · rwa [abs_of_nonneg hx] at h
  linarith

theorem Same.one_add {a b : ℤ} {x y : ℝ} (h : Same a b x y) (hy : 0 ≤ y) (hb : 0 ≤ b) : Same 0 (b + 1) (1 + x) (1 + y) :=
  ⟨by rw [h.1], h.2.one_add hy hb⟩

theorem Rounding.nonneg {fl : ℝ → ℝ} (h : Rounding u fl) (hu1 : u ≤ 1) {x : ℝ} (hx : 0 ≤ x) : 0 ≤ fl x := by
  have := h x
  rw [abs_of_nonneg hx] at this
  have := (_root_.abs_le.1 this).1
  nlinarith

theorem Rounding.pos {fl : ℝ → ℝ} (h : Rounding u fl) (hu1 : u < 1) {x : ℝ} (hx : 0 < x) : 0 < fl x := by
  have := h x
  rw [abs_of_pos hx] at this
  have := (_root_.abs_le.1 this).1
  nlinarith

section
variable (hA : A.AccurateInRange u) (hu : 0 ≤ u) (hu1 : u ≤ 1 / 2 ^ 21)
include hA hu hu1

theorem RArith.width_same {l : Level} (hl : l.InRange) :
    SameE (-101) 121 (A.width l) (A.complete.width l) ∧ ∀ v, A.complete.width l = .ok v → 0 ≤ v := by
  cases h : l.widths with
  | none =>
    refine ⟨⟨?_, ?_⟩, ?_⟩ <;> simp [RArith.width, Level.partialWidths, h, bind, Except.bind]
  | some pw =>
    obtain ⟨hn, hlen, hpos⟩ := hl pw h
    have e : ∀ B : RArith, B.width l = .ok (B.sum (pw.map Prod.snd)) := fun B => by
      simp [RArith.width, Level.partialWidths, h, mapM_lookup_nodup pw pw hn (fun _ h => h), bind, Except.bind]
    obtain ⟨h1, h2⟩ := RArith.sum_same hA hu hu1 (pw.map Prod.snd) (by simpa using fun x y h => hpos (y, x) h) (by simpa using hlen)
    rw [e, e]
    exact ⟨h1.ok, fun v hv => by cases hv; exact h2⟩

theorem RArith.branching_same {l : Level} (hl : l.InRange) (final : Option Level) :
    SameE (-222) 202 (A.branchingRatio l final) (A.complete.branchingRatio l final) := by
  have hu1' : u ≤ 1 / 100 := hu1.trans (by norm_num)
  cases final with
  | none => exact ((Same.num (x := 1) 0 0 (by norm_num) (by norm_num)).mono (by norm_num) (by norm_num)).ok
  | some f =>
    simp only [RArith.branchingRatio, bind, Except.bind, Level.partialWidths]
    cases h : l.widths with
    | none => exact ⟨rfl, by simp⟩
    | some pw =>
      simp only
      cases h2 : lookup f.Jpi pw with
      | error e => exact ⟨by simp, by simp⟩
      | ok g =>
        simp only
        have hx := lookup_mem h2
        rcases (RArith.width_same hA hu hu1 hl).1.cases with ⟨e, h3, h4⟩ | ⟨v, h3, h4, hv⟩
        · rw [h3, h4]; exact ⟨rfl, by simp⟩
        · rw [h3, h4]
          exact (Same.refl ((hl pw h).2.2 _ hx).2).rdiv hA hu1' hv (by norm_num) (by norm_num)

theorem RArith.mkResonance_same {k : PhysConst} (hk : k.InRange) {init inter : Level} (hl : inter.InRange) (final : Option Level)
    (hJ : |inter.twoJ + 1| ≤ 2 ^ 10) (hJ0 : |init.twoJ + 1| ≤ 2 ^ 10) (hE : Mag (-60) 60 (inter.exc - init.exc)) :
    A.mkResonance k init inter final = A.complete.mkResonance k init inter final ∧
      ∀ er ics, A.complete.mkResonance k init inter final = .ok (er, ics) → Mag (-503) 489 ics := by
  have hu1' : u ≤ 1 / 100 := hu1.trans (by norm_num)
  have hpi := Same.pi.fl hA hu1' (by norm_num) (by norm_num)
  have hc := ((hpi.mul (.refl hk.hbarc)).fl hA hu1' (by norm_num) (by norm_num)).rsq hA hu1' (by norm_num) (by norm_num)
  have her := (Same.refl hE).fl hA hu1' (by norm_num) (by norm_num)
  have her2 := her.rsq hA hu1' (by norm_num) (by norm_num)
  have hst : SameE (-11) 11 (A.statFactor init inter) (A.complete.statFactor init inter) := by
    have h1 := Same.intCast hJ
    have h2 := Same.intCast hJ0
    push_cast at h1 h2
    exact h1.rdiv hA hu1' h2 (by norm_num) (by norm_num)
  have hq := hc.rdiv hA hu1' her2 (by norm_num) (by norm_num)
  have hbr := RArith.branching_same hA hu hu1 hl final
  simp only [RArith.mkResonance, RArith.integratedCS, bind, Except.bind, Level.partialWidths]
  rcases hst.cases with ⟨e, h3, h4⟩ | ⟨st, h3, h4, hst'⟩
  · rw [h3, h4]; exact ⟨rfl, by simp⟩
  rw [h3, h4]
  simp only
  rcases hbr.cases with ⟨e, h5, h6⟩ | ⟨br, h5, h6, hbr'⟩
  · rw [h5, h6]; exact ⟨rfl, by simp⟩
  rw [h5, h6]
  simp only
  rcases hq.cases with ⟨e, h7, h8⟩ | ⟨q, h7, h8, hq'⟩
  · rw [h7, h8]; exact ⟨rfl, by simp⟩
  rw [h7, h8]
  simp only
  cases h : inter.widths with
  | none => exact ⟨rfl, by simp⟩
  | some pw =>
    simp only
    cases h2 : lookup init.Jpi pw with
    | error e => exact ⟨rfl, by simp⟩
    | ok g =>
      simp only
      have hg : Mag (-100) 100 g := ((hl pw h).2.2 _ (lookup_mem h2)).2
      have r1 := (hq'.mul hst').fl hA hu1' (by norm_num) (by norm_num)
      have r2 := (r1.mul (.refl hg)).fl hA hu1' (by norm_num) (by norm_num)
      have r3 := (r2.mul hbr').fl hA hu1' (by norm_num) (by norm_num)
      refine ⟨by rw [r3.1, her.1], fun er ics h => ?_⟩
      simp only [Except.ok.injEq, Prod.mk.injEq] at h
      rw [← h.2]
      exact r3.2.mono (by norm_num) (by norm_num)

theorem RArith.cauchy_same {l s E : ℝ} (hs : Mag (-103) 121 s) (hE : Mag (-100) 60 (E - l)) :
    Same (-460) 107 (A.cauchyPdf l s E) (A.complete.cauchyPdf l s E) := by
  have hu1' : u ≤ 1 / 100 := hu1.trans (by norm_num)
  have hB := RArith.complete_accurate hA hu
  have hpi := Same.pi.fl hA hu1' (by norm_num) (by norm_num)
  have h1 := (Same.refl hE).fl hA hu1' (by norm_num) (by norm_num)
  have hz := (h1.div (.refl hs)).fl hA hu1' (by norm_num) (by norm_num)
  have hz2 := (hz.mul hz).fl hA hu1' (by norm_num) (by norm_num)
  have h3 := (hz2.one_add (hB.fl.nonneg (by linarith) (mul_self_nonneg _)) (by norm_num)).fl hA hu1' (by norm_num) (by norm_num)
  have h4 := ((Same.num (x := 1) 0 0 (by norm_num) (by norm_num)).div hpi).fl hA hu1' (by norm_num) (by norm_num)
  have h5 := (h4.div h3).fl hA hu1' (by norm_num) (by norm_num)
  have h6 := (h5.div (.refl hs)).fl hA hu1' (by norm_num) (by norm_num)
  exact h6.mono (by norm_num) (by norm_num)

theorem RArith.breitWigner_same {k : PhysConst} (hk : k.InRange) {init inter : Level} (hl : inter.InRange) (final : Option Level)
    (hJ : |inter.twoJ + 1| ≤ 2 ^ 10) (hJ0 : |init.twoJ + 1| ≤ 2 ^ 10) (hE : Mag (-60) 60 (inter.exc - init.exc)) {E : ℝ}
    (hd : Mag (-100) 60 (E - A.fl (inter.exc - init.exc))) :
    A.breitWigner k init inter final E = A.complete.breitWigner k init inter final E := by
  have hu1' : u ≤ 1 / 100 := hu1.trans (by norm_num)
  obtain ⟨e1, h1⟩ := RArith.mkResonance_same hA hu hu1 hk hl final hJ hJ0 hE
  obtain ⟨hw, -⟩ := RArith.width_same hA hu hu1 hl
  simp only [RArith.breitWigner, bind, Except.bind]
  rw [e1]
  rcases h2 : A.complete.mkResonance k init inter final with e | ⟨er, ics⟩
  · rfl
  have her : er = A.fl (inter.exc - init.exc) := by
    have hn := hE.normal (by norm_num) (by norm_num)
    have e : A.complete.fl (inter.exc - init.exc) = A.fl (inter.exc - init.exc) := if_pos hn
    rw [← e]
    simp only [RArith.mkResonance, bind, Except.bind] at h2
    split at h2
    · simp at h2
    · split at h2
      · simp at h2
      · split at h2
        · simp at h2
        · simp only [Except.ok.injEq, Prod.mk.injEq] at h2
          exact h2.1.symm
  simp only
  rcases hw.cases with ⟨e, h3, h4⟩ | ⟨w, h3, h4, hw'⟩
  · rw [h3, h4]
  rw [h3, h4]
  simp only
  have hs := ((Same.num (x := 0.5) (-1) (-1) (by norm_num) (by norm_num)).mul hw').fl hA hu1' (by norm_num) (by norm_num)
  rw [hs.1]
  have hp := RArith.cauchy_same (l := er) (E := E) hA hu hu1 (hs.2.mono (by norm_num) (by norm_num)) (by rw [her]; exact hd)
  have hv := ((Same.refl (h1 er ics h2)).mul hp).fl hA hu1' (by norm_num) (by norm_num)
  rw [hv.1]

theorem RArith.doppler_same {k : PhysConst} (hk : k.InRange) {amu T E : ℝ} (ha : 0 ≤ amu) (ha' : Mag (-20) 20 amu) (hT : 0 ≤ T)
    (hT' : Mag (-60) 60 T) (hE : Mag (-61) 61 E) :
    SameE (-136) 117 (A.dopplerWidth k amu T E) (A.complete.dopplerWidth k amu T E) := by
  have hu1' : u ≤ 1 / 100 := hu1.trans (by norm_num)
  have hB := RArith.complete_accurate hA hu
  have hpos : ∀ {x}, 0 ≤ x → 0 ≤ A.complete.fl x := fun hx => hB.fl.nonneg (by linarith) hx
  have h1 := ((Same.num (x := 2) 1 1 (by norm_num) (by norm_num)).mul (.refl hk.kB)).fl hA hu1' (by norm_num) (by norm_num)
  have h2 := (Same.num (x := 1e-6) (-20) (-19) (by norm_num) (by norm_num)).fl hA hu1' (by norm_num) (by norm_num)
  have h3 := (h1.mul h2).fl hA hu1' (by norm_num) (by norm_num)
  have h4 := (h3.mul (.refl hT')).fl hA hu1' (by norm_num) (by norm_num)
  have h5 := ((Same.refl ha').mul (.refl hk.u)).fl hA hu1' (by norm_num) (by norm_num)
  have h6 := h4.rdiv hA hu1' h5 (by norm_num) (by norm_num)
  have hn : ∀ v, A.complete.div (A.complete.fl (A.complete.fl (A.complete.fl (2 * k.kB) * A.complete.fl 1e-6) * T))
      (A.complete.fl (amu * k.u)) = .ok v → 0 ≤ v := by
    intro v hv
    unfold RArith.div at hv
    split at hv
    · simp at hv
    · cases hv
      have := k.kB_pos
      have := k.u_pos
      exact hpos (div_nonneg (hpos (mul_nonneg (hpos (mul_nonneg (hpos (by positivity)) (hpos (by norm_num)))) hT)) (hpos (by positivity)))
  simp only [RArith.dopplerWidth, bind, Except.bind]
  rcases h6.cases with ⟨e, h7, h8⟩ | ⟨v, h7, h8, hv⟩
  · rw [h7, h8]; exact ⟨rfl, by simp⟩
  rw [h7, h8]
  simp only
  have h9 := Same.rsqrt (a := -73) (b := 54) hA hu1' (hv.mono (by norm_num) (by norm_num)) (hn v h8) (by norm_num) (by norm_num)
  exact (((Same.refl hE).mul h9).fl hA hu1' (by norm_num) (by norm_num)).mono (by norm_num) (by norm_num) |>.ok

theorem RArith.norm_same {l s E : ℝ} (hs : Mag (-139) 119 s) (hE : Mag (-100) 60 (E - l))
    (hx : |A.complete.fl (-A.complete.sq (A.complete.fl (A.complete.fl (E - l) / s)) / 2)| ≤ 220) :
    Same (-456) 473 (A.normPdf l s E) (A.complete.normPdf l s E) := by
  have hu1' : u ≤ 1 / 100 := hu1.trans (by norm_num)
  have hB := RArith.complete_accurate hA hu
  have hpi := Same.pi.fl hA hu1' (by norm_num) (by norm_num)
  have h1 := (Same.refl hE).fl hA hu1' (by norm_num) (by norm_num)
  have hz := (h1.div (.refl hs)).fl hA hu1' (by norm_num) (by norm_num)
  have hz2 := hz.rsq hA hu1' (by norm_num) (by norm_num)
  have hz3 := (hz2.neg.div (Same.num (x := 2) 1 1 (by norm_num) (by norm_num))).fl hA hu1' (by norm_num) (by norm_num)
  have he8 : Real.exp 2 ≤ 2 ^ 3 := by
    have := Real.exp_one_lt_d9
    rw [show (2 : ℝ) = 1 + 1 by norm_num, Real.exp_add]
    have h0 := (Real.exp_pos 1).le
    nlinarith
  have he : Real.exp 220 ≤ 2 ^ 330 := by
    rw [show (220 : ℝ) = (110 : ℕ) * 2 by norm_num, Real.exp_nat_mul, show (2 : ℝ) ^ 330 = (2 ^ 3) ^ 110 by rw [← pow_mul]]
    exact pow_le_pow_left₀ (Real.exp_pos _).le he8 _
  obtain ⟨x1, x2⟩ := _root_.abs_le.1 hx
  have hm : Mag (-330) 330 (Real.exp (A.complete.fl (-A.complete.sq (A.complete.fl (A.complete.fl (E - l) / s)) / 2))) := by
    refine .of_bounds ?_ ?_
    · have h2 := Real.exp_le_exp.2 x1
      rw [Real.exp_neg] at h2
      refine le_trans ?_ h2
      rw [zpow_neg]
      exact inv_anti₀ (Real.exp_pos _) (by exact_mod_cast he)
    · exact (Real.exp_le_exp.2 x2).trans (by exact_mod_cast he)
  have h3 := Same.rexp hA hu1' hz3.1 hm (by norm_num) (by norm_num)
  have h4 := ((Same.num (x := 2) 1 1 (by norm_num) (by norm_num)).mul hpi).fl hA hu1' (by norm_num) (by norm_num)
  have h5 := Same.rsqrt (a := 0) (b := 3) hA hu1' (h4.mono (by norm_num) (by norm_num))
    (hB.fl.nonneg (by linarith) (mul_nonneg (by norm_num) (hB.fl.nonneg (by linarith) Real.pi_pos.le))) (by norm_num) (by norm_num)
  have h6 := (h3.div h5).fl hA hu1' (by norm_num) (by norm_num)
  have h7 := (h6.div (.refl hs)).fl hA hu1' (by norm_num) (by norm_num)
  exact h7.mono (by norm_num) (by norm_num)

omit hA hu hu1 in
theorem RArith.complete_fl {a b : ℤ} {x : ℝ} (h : Mag a b x) (ha : -1022 ≤ a) (hb : b ≤ 1023) : A.complete.fl x = A.fl x :=
  if_pos (h.normal ha hb)

theorem RArith.recoil_same {k : PhysConst} (hk : k.InRange) {amu dE : ℝ} (ha : 0 ≤ amu) (ha' : Mag (-20) 20 amu) (hd : 0 ≤ dE)
    (hd' : Mag (-60) 60 dE) : SameE (-62) 165 (A.freeNucleusRecoil k amu dE) (A.complete.freeNucleusRecoil k amu dE) := by
  have hu1' : u ≤ 1 / 100 := hu1.trans (by norm_num)
  have hB := RArith.complete_accurate hA hu
  have hpos : ∀ {x}, 0 ≤ x → 0 ≤ A.complete.fl x := fun hx => hB.fl.nonneg (by linarith) hx
  have h1 := ((Same.num (x := 2) 1 1 (by norm_num) (by norm_num)).mul (.refl ha')).fl hA hu1' (by norm_num) (by norm_num)
  have h2 := (h1.mul (.refl hk.u)).fl hA hu1' (by norm_num) (by norm_num)
  have h3 := (Same.refl hd').rdiv hA hu1' h2 (by norm_num) (by norm_num)
  have hn : ∀ v, A.complete.div dE (A.complete.fl (A.complete.fl (2 * amu) * k.u)) = .ok v → 0 ≤ v := by
    intro v hv
    unfold RArith.div at hv
    split at hv
    · simp at hv
    · cases hv
      have := k.u_pos
      exact hpos (div_nonneg hd (hpos (mul_nonneg (hpos (by positivity)) this.le)))
  simp only [RArith.freeNucleusRecoil, bind, Except.bind]
  rcases h3.cases with ⟨e, h7, h8⟩ | ⟨v, h7, h8, hv⟩
  · rw [h7, h8]; exact ⟨rfl, by simp⟩
  rw [h7, h8]
  simp only
  have h9 := (hv.one_add (hn v h8) (by norm_num)).fl hA hu1' (by norm_num) (by norm_num)
  exact (((Same.refl hd').mul h9).fl hA hu1' (by norm_num) (by norm_num)).mono (by norm_num) (by norm_num) |>.ok

omit hu in
theorem RArith.temperature_same {k : PhysConst} (hk : k.InRange) {w amu E : ℝ} (hw : Mag (-136) 117 w) (ha : Mag (-20) 20 amu)
    (hE : Mag (-61) 61 E) :
    A.effectiveTemperature k w amu E = A.complete.effectiveTemperature k w amu E := by
  have hu1' : u ≤ 1 / 100 := hu1.trans (by norm_num)
  have h1 := ((Same.refl hw).mul (.refl hw)).fl hA hu1' (by norm_num) (by norm_num)
  have h2 := (h1.mul (.refl ha)).fl hA hu1' (by norm_num) (by norm_num)
  have h3 := (h2.mul (.refl hk.u)).fl hA hu1' (by norm_num) (by norm_num)
  have h4 := ((Same.refl hE).mul (.refl hE)).fl hA hu1' (by norm_num) (by norm_num)
  have h5 := (h4.mul (Same.num (x := 2) 1 1 (by norm_num) (by norm_num))).fl hA hu1' (by norm_num) (by norm_num)
  have h6 := (h5.mul (.refl hk.kB)).fl hA hu1' (by norm_num) (by norm_num)
  have h7 := (Same.num (x := 1e-6) (-20) (-19) (by norm_num) (by norm_num)).fl hA hu1' (by norm_num) (by norm_num)
  have h8 := (h6.mul h7).fl hA hu1' (by norm_num) (by norm_num)
  exact (h3.rdiv hA hu1' h8 (by norm_num) (by norm_num)).1

end

end Ries
