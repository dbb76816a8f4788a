import Verif.Props.MonteCarlo
import Mathlib.Order.Monotone.Basic

/-! # The one-dimensional simplex search for a function with a single minimum -/

open Set

namespace Ries.Simplex

/-- what a smaller value says about the place `w` of the minimum -/
def Uni (g : ℝ → ℝ) (w : ℝ) : Prop := ∀ a b, a < b → (g a ≤ g b → w < b) ∧ (g b ≤ g a → a < w)

theorem uni_of {g : ℝ → ℝ} {w : ℝ} (h1 : StrictAntiOn g (Iic w)) (h2 : StrictMonoOn g (Ici w)) : Uni g w := by
  intro a b hab
  constructor
  · intro h
    by_contra hw
    push Not at hw
    exact absurd (h1 (mem_Iic.2 (hab.le.trans hw)) (mem_Iic.2 hw) hab) (not_lt.2 h)
  · intro h
    by_contra hw
    push Not at hw
    exact absurd (h2 (mem_Ici.2 hw) (mem_Ici.2 (hw.trans hab.le)) hab) (not_lt.2 h)

/-- the same along a line -/
theorem Uni.line {g : ℝ → ℝ} {w : ℝ} (h : Uni g w) {x δ p : ℝ} (hδ : δ ≠ 0) (hp : w = x + p * δ) : Uni (fun t => g (x + t * δ)) p := by
  intro a b hab
  rcases lt_or_gt_of_ne hδ with hd | hd
  · obtain ⟨h1, h2⟩ := h (x + b * δ) (x + a * δ) (by nlinarith)
    constructor
    · intro hg
      have := h2 hg
      rw [hp] at this
      by_contra hc
      nlinarith
    · intro hg
      have := h1 hg
      rw [hp] at this
      by_contra hc
      nlinarith
  · obtain ⟨h1, h2⟩ := h (x + a * δ) (x + b * δ) (by nlinarith)
    constructor
    · intro hg
      have := h1 hg
      rw [hp] at this
      by_contra hc
      nlinarith
    · intro hg
      have := h2 hg
      rw [hp] at this
      by_contra hc
      nlinarith

/-- The state of the search: values belong to their points, the best point comes first, the points are different, and the minimum is at
`x0 + p (x0 - x1)`. -/
structure At (g : ℝ → ℝ) (w p δ : ℝ) (s : Simplex) : Prop where
  f0 : s.f0 = g s.x0
  f1 : s.f1 = g s.x1
  le : s.f0 ≤ s.f1
  x1 : s.x1 = s.x0 - δ
  ne : δ ≠ 0
  pos : w = s.x0 + p * δ

/-- the possible changes of the distance of the points and of the relative place of the minimum in one iteration -/
inductive Move (δ p : ℝ) : ℝ → ℝ → Prop
  | expand (h : 1 < p) : Move δ p (2 * δ) (p / 2 - 1)
  | reflect (h0 : 0 < p) (h1 : p < 2) : Move δ p δ (p - 1)
  | outside (h0 : 0 < p) (h1 : p < 1) : Move δ p (δ / 2) (2 * p - 1)
  | outsideWorse (h0 : -1 < p) (h1 : p < 1 / 2) : Move δ p (-(δ / 2)) (-(2 * p))
  | inside (h0 : -1 < p) (h1 : p < 0) : Move δ p (-(δ / 2)) (-1 - 2 * p)
  | insideWorse (h0 : -(1 / 2) < p) (h1 : p < 1) : Move δ p (δ / 2) (2 * p)

theorem sort_at {g : ℝ → ℝ} {w x0 x1 : ℝ} {c : ℕ} {δ p : ℝ} (hne : δ ≠ 0) (hw : w = x0 + p * δ) {t : ℝ} (ht : t ≠ 0) (h1 : x1 = x0 + t * δ) :
    (g x1 < g x0 → At g w (p / t - 1) (t * δ) (sort ⟨x0, g x0, x1, g x1, c⟩)) ∧
    (g x0 ≤ g x1 → At g w (-(p / t)) (-(t * δ)) (sort ⟨x0, g x0, x1, g x1, c⟩)) := by
  constructor
  · intro h
    unfold sort
    rw [if_pos h]
    exact ⟨rfl, rfl, h.le, by simp only; rw [h1]; ring, mul_ne_zero ht hne, by simp only; rw [h1, hw]; field_simp; ring⟩
  · intro h
    unfold sort
    rw [if_neg (not_lt.2 h)]
    exact ⟨rfl, rfl, h, by simp only; rw [h1]; ring, neg_ne_zero.2 (mul_ne_zero ht hne), by simp only; rw [hw]; field_simp⟩

/-- one iteration -/
theorem step_at {g : ℝ → ℝ} {w p δ : ℝ} (hU : Uni g w) {s : Simplex} (hs : At g w p δ s) :
    -1 < p ∧ ∃ t δ' p', step (fun x => .ok (g x)) s = .ok t ∧ At g w p' δ' t.sort ∧ Move δ p δ' p' ∧ t.sort.calls ≤ s.calls + 3 := by
  obtain ⟨x0, f0, x1, f1, c⟩ := s
  obtain ⟨hf0, hf1, hle, hx1, hne, hw⟩ := hs
  dsimp only at hf0 hf1 hle hx1 hw
  have hL := hU.line hne hw
  have e0 : g (x0 + 0 * δ) = g x0 := by simp
  have em : g (x0 + (-1) * δ) = g x1 := by rw [hx1]; congr 1; ring
  have hp : -1 < p := (hL (-1) 0 (by norm_num)).2 (by simp only; rw [e0, em, ← hf0, ← hf1]; exact hle)
  have er : g (x0 + 1 * δ) = g (2 * x0 - x1) := by rw [hx1]; congr 1; ring
  have ee : g (x0 + 2 * δ) = g (3 * x0 - 2 * x1) := by rw [hx1]; congr 1; ring
  have eo : g (x0 + 1 / 2 * δ) = g (1.5 * x0 - 0.5 * x1) := by rw [hx1]; congr 1; ring
  have ei : g (x0 + -(1 / 2) * δ) = g (0.5 * x0 + 0.5 * x1) := by rw [hx1]; congr 1; ring
  have es : x0 + 0.5 * (x1 - x0) = 0.5 * x0 + 0.5 * x1 := by ring
  have hsc : ∀ a b d e n, (sort ⟨a, b, d, e, n⟩).calls = n := by
    intro a b d e n
    unfold sort
    split_ifs <;> rfl
  refine ⟨hp, ?_⟩
  -- the half-way point on the side of the worse point, used by two branches
  have half : ∀ n, p < 1 → ∃ δ' p', At g w p' δ' (sort ⟨x0, g x0, 0.5 * x0 + 0.5 * x1, g (0.5 * x0 + 0.5 * x1), n⟩) ∧ Move δ p δ' p' := by
    intro n hp1
    obtain ⟨q1, q2⟩ := sort_at (g := g) (c := n) hne hw (t := -(1 / 2)) (by norm_num) (x1 := 0.5 * x0 + 0.5 * x1) (by rw [hx1]; ring)
    rcases lt_or_ge (g (0.5 * x0 + 0.5 * x1)) (g x0) with h | h
    · refine ⟨_, _, q1 h, ?_⟩
      have hp0 : p < 0 := (hL (-(1 / 2)) 0 (by norm_num)).1 (by simp only; rw [e0, ei]; exact h.le)
      have := Move.inside (δ := δ) hp hp0
      convert this using 1 <;> ring
    · refine ⟨_, _, q2 h, ?_⟩
      have hp0 : -(1 / 2) < p := (hL (-(1 / 2)) 0 (by norm_num)).2 (by simp only; rw [e0, ei]; exact h)
      have := Move.insideWorse (δ := δ) hp0 hp1
      convert this using 1 <;> ring
  subst hf0 hf1
  unfold step
  simp only [Bind.bind, Except.bind]
  by_cases h1 : g (2 * x0 - x1) < g x0
  · have hp0 : 0 < p := (hL 0 1 (by norm_num)).2 (by simp only; rw [e0, er]; exact h1.le)
    rw [if_pos h1]
    by_cases h2 : g (3 * x0 - 2 * x1) < g (2 * x0 - x1)
    · rw [if_pos h2]
      have hp1 : 1 < p := (hL 1 2 (by norm_num)).2 (by simp only; rw [er, ee]; exact h2.le)
      obtain ⟨q1, -⟩ := sort_at (g := g) (c := c + 2) hne hw (t := 2) (by norm_num) (x1 := 3 * x0 - 2 * x1) (by rw [hx1]; ring)
      exact ⟨_, _, _, rfl, q1 (h2.trans h1), .expand hp1, by rw [hsc]; omega⟩
    · rw [if_neg h2]
      have hp2 : p < 2 := (hL 1 2 (by norm_num)).1 (by simp only; rw [er, ee]; exact not_lt.1 h2)
      obtain ⟨q1, -⟩ := sort_at (g := g) (c := c + 2) hne hw (t := 1) (by norm_num) (x1 := 2 * x0 - x1) (by rw [hx1]; ring)
      refine ⟨_, _, _, rfl, q1 h1, ?_, by rw [hsc]; omega⟩
      have := Move.reflect (δ := δ) hp0 hp2
      convert this using 1 <;> ring
  · rw [if_neg h1]
    have hp1 : p < 1 := (hL 0 1 (by norm_num)).1 (by simp only; rw [e0, er]; exact not_lt.1 h1)
    by_cases h2 : g (2 * x0 - x1) < g x1
    · rw [if_pos h2]
      by_cases h3 : g (1.5 * x0 - 0.5 * x1) ≤ g (2 * x0 - x1)
      · rw [if_pos h3]
        obtain ⟨q1, q2⟩ := sort_at (g := g) (c := c + 2) hne hw (t := 1 / 2) (by norm_num) (x1 := 1.5 * x0 - 0.5 * x1) (by rw [hx1]; ring)
        rcases lt_or_ge (g (1.5 * x0 - 0.5 * x1)) (g x0) with h | h
        · have hp0 : 0 < p := (hL 0 (1 / 2) (by norm_num)).2 (by simp only; rw [e0, eo]; exact h.le)
          refine ⟨_, _, _, rfl, q1 h, ?_, by rw [hsc]; omega⟩
          have := Move.outside (δ := δ) hp0 hp1
          convert this using 1 <;> ring
        · have hp0 : p < 1 / 2 := (hL 0 (1 / 2) (by norm_num)).1 (by simp only; rw [e0, eo]; exact h)
          refine ⟨_, _, _, rfl, q2 h, ?_, by rw [hsc]; omega⟩
          have := Move.outsideWorse (δ := δ) hp hp0
          convert this using 1 <;> ring
      · rw [if_neg h3, es]
        obtain ⟨δ', p', k1, k2⟩ := half (c + 2 + 1) hp1
        exact ⟨_, δ', p', rfl, k1, k2, by rw [hsc]⟩
    · rw [if_neg h2]
      by_cases h3 : g (0.5 * x0 + 0.5 * x1) < g x1
      · rw [if_pos h3]
        obtain ⟨δ', p', k1, k2⟩ := half (c + 2) hp1
        exact ⟨_, δ', p', rfl, k1, k2, by rw [hsc]; omega⟩
      · rw [if_neg h3, es]
        obtain ⟨δ', p', k1, k2⟩ := half (c + 2 + 1) hp1
        exact ⟨_, δ', p', rfl, k1, k2, by rw [hsc]⟩

/-- Progress measure: the distance of the points is `H 2^j`, and `e` decreases in every iteration. -/
def Meas (H δ p : ℝ) (e : ℤ) : Prop :=
  ∃ j : ℤ, |δ| = H * 2 ^ j ∧ (p < 2 ∨ 0 ≤ j) ∧
    (p ≤ -(1 / 2) ∧ 4 * j ≤ e ∨ -(1 / 2) < p ∧ p ≤ 0 ∧ 4 * j - 2 ≤ e ∨ 0 < p ∧ p < 1 ∧ 4 * j + 1 ≤ e ∨
      1 ≤ p ∧ ∃ k : ℕ, p + 2 < 2 ^ (k + 2) ∧ 4 * j + 3 + 5 * k ≤ e)

theorem Meas.classify {H δ p : ℝ} {e : ℤ} {j : ℤ} (h : |δ| = H * 2 ^ j) (hp : p < 1) (h1 : 4 * j + 1 ≤ e) : Meas H δ p e := by
  refine ⟨j, h, Or.inl (by linarith), ?_⟩
  rcases le_or_gt p (-(1 / 2)) with a | a
  · exact Or.inl ⟨a, by omega⟩
  · rcases le_or_gt p 0 with b | b
    · exact Or.inr (Or.inl ⟨a, b, by omega⟩)
    · exact Or.inr (Or.inr (Or.inl ⟨b, hp, h1⟩))

theorem Meas.classify2 {H δ p : ℝ} {e : ℤ} {j : ℤ} (h : |δ| = H * 2 ^ j) (hp : p < 2) (h1 : 4 * j + 3 ≤ e) : Meas H δ p e := by
  rcases lt_or_ge p 1 with a | a
  · exact Meas.classify h a (by omega)
  · exact ⟨j, h, Or.inl hp, Or.inr (Or.inr (Or.inr ⟨a, 0, by norm_num; linarith, by push_cast; omega⟩))⟩

theorem Move.meas {H δ p δ' p' : ℝ} {e : ℤ} (hm : Move δ p δ' p') (h : Meas H δ p e) : Meas H δ' p' (e - 1) := by
  obtain ⟨j, hj, hb, hc⟩ := h
  have hhalf : |δ / 2| = H * 2 ^ (j - 1) := by
    rw [abs_div, hj, zpow_sub_one₀ (by norm_num)]
    norm_num
    ring
  have hdouble : |2 * δ| = H * 2 ^ (j + 1) := by
    rw [abs_mul, hj, zpow_add_one₀ (by norm_num)]
    norm_num
    ring
  cases hm with
  | expand h =>
    rcases hc with ⟨a, -⟩ | ⟨-, a, -⟩ | ⟨-, a, -⟩ | ⟨a, k, hk, he⟩
    · linarith
    · linarith
    · linarith
    · rcases lt_or_ge p 2 with h2 | h2
      · exact ⟨j + 1, hdouble, Or.inl (by linarith), Or.inr (Or.inl ⟨by linarith, by linarith, by omega⟩)⟩
      · have hj0 : 0 ≤ j := by
          rcases hb with h | h
          · linarith
          · exact h
        cases k with
        | zero => norm_num at hk; linarith
        | succ k =>
          have hk' : p / 2 - 1 + 2 < 2 ^ (k + 2) := by
            have : (2 : ℝ) ^ (k + 1 + 2) = 2 * 2 ^ (k + 2) := by ring
            rw [this] at hk
            linarith
          push_cast at he
          rcases lt_or_ge (p / 2 - 1) 1 with h3 | h3
          · exact Meas.classify hdouble h3 (by omega)
          · exact ⟨j + 1, hdouble, Or.inr (by omega), Or.inr (Or.inr (Or.inr ⟨h3, k, hk', by omega⟩))⟩
  | reflect h0 h1 =>
    rcases hc with ⟨a, -⟩ | ⟨-, a, -⟩ | ⟨a, b, he⟩ | ⟨a, k, hk, he⟩
    · linarith
    · linarith
    · refine ⟨j, hj, Or.inl (by linarith), ?_⟩
      rcases le_or_gt (p - 1) (-(1 / 2)) with c | c
      · exact Or.inl ⟨c, by omega⟩
      · exact Or.inr (Or.inl ⟨c, by linarith, by omega⟩)
    · exact Meas.classify hj (by linarith) (by omega)
  | outside h0 h1 =>
    rcases hc with ⟨a, -⟩ | ⟨-, a, -⟩ | ⟨a, b, he⟩ | ⟨a, k, hk, he⟩
    · linarith
    · linarith
    · exact Meas.classify hhalf (by linarith) (by omega)
    · linarith
  | outsideWorse h0 h1 =>
    rw [← abs_neg] at hhalf
    rcases hc with ⟨a, he⟩ | ⟨b, a, he⟩ | ⟨a, b, he⟩ | ⟨a, k, hk, he⟩
    · exact Meas.classify2 hhalf (by linarith) (by omega)
    · exact Meas.classify hhalf (by linarith) (by omega)
    · exact Meas.classify hhalf (by linarith) (by omega)
    · linarith
  | inside h0 h1 =>
    rw [← abs_neg] at hhalf
    rcases hc with ⟨a, he⟩ | ⟨b, a, he⟩ | ⟨a, b, he⟩ | ⟨a, k, hk, he⟩
    · exact Meas.classify hhalf (by linarith) (by omega)
    · exact Meas.classify hhalf (by linarith) (by omega)
    · linarith
    · linarith
  | insideWorse h0 h1 =>
    rcases hc with ⟨a, he⟩ | ⟨b, a, he⟩ | ⟨a, b, he⟩ | ⟨a, k, hk, he⟩
    · linarith
    · exact Meas.classify hhalf (by linarith) (by omega)
    · exact Meas.classify2 hhalf (by linarith) (by omega)
    · linarith

/-- the loop: it returns a value, after `i` iterations, because the criterion to stop is met or the number of iterations or evaluations is
used up -/
theorem loop_at {g : ℝ → ℝ} {w H tol : ℝ} (hU : Uni g w) (n : ℕ) {s : Simplex} {δ p : ℝ} {e : ℤ} (hs : At g w p δ s) (hm : Meas H δ p e) :
    ∃ t δ' p', ∃ i : ℕ, loop (fun x => .ok (g x)) tol n s = .ok t ∧ At g w p' δ' t ∧ Meas H δ' p' (e - i) ∧
      (t.Small tol ∨ i = n ∨ 200 ≤ s.calls + 3 * i) := by
  induction n generalizing s δ p e with
  | zero => exact ⟨s, δ, p, 0, rfl, hs, by simpa using hm, Or.inr (Or.inl rfl)⟩
  | succ n ih =>
    rw [loop]
    by_cases h1 : 200 ≤ s.calls
    · rw [if_pos h1]
      exact ⟨s, δ, p, 0, rfl, hs, by simpa using hm, Or.inr (Or.inr (by omega))⟩
    · rw [if_neg h1]
      by_cases h2 : s.Small tol
      · rw [if_pos h2]
        exact ⟨s, δ, p, 0, rfl, hs, by simpa using hm, Or.inl h2⟩
      · rw [if_neg h2]
        obtain ⟨-, t, δ', p', e1, e2, e3, e4⟩ := step_at hU hs
        simp only [e1, Bind.bind, Except.bind]
        obtain ⟨t', δ'', p'', i, k1, k2, k3, k4⟩ := ih e2 (e3.meas hm)
        refine ⟨t', δ'', p'', i + 1, k1, k2, ?_, ?_⟩
        · have : e - ((i + 1 : ℕ) : ℤ) = e - 1 - i := by push_cast; ring
          rw [this]; exact k3
        · rcases k4 with k | k | k
          · exact Or.inl k
          · exact Or.inr (Or.inl (by omega))
          · exact Or.inr (Or.inr (by omega))

end Ries.Simplex
