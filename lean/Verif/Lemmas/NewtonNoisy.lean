import Verif.Lemmas.NewtonConv
import Verif.Lemmas.RoundedNewton
import Verif.Lemmas.Tails

/-! # Convergence of Newton's iteration with rounding errors

Below the centre the distribution function is convex. A step that is off by at most `a + h / p x` either reduces the product of residual
and density by the factor 0.261, or the point is already close to the quantile and remains close. -/

namespace Ries

/-- What is needed on the lower side: `xs` is the quantile, `m` a lower bound of the density at all points whose probability is not much
smaller than `q`, `M` an upper bound of the density, and there is room between the quantile and the centre. -/
structure NoisySide (F p : ℝ → ℝ) (c q xs m M a h : ℝ) : Prop where
  good : GoodCDF F p
  peaked : Peaked c p
  root : F xs = q
  m0 : 0 < m
  a0 : 0 ≤ a
  h0 : 0 ≤ h
  peak : p c ≤ M
  low : ∀ x, x ≤ c → q - (M * a + h) ≤ F x → m ≤ p x
  room : xs + 2 * ((M * a + h) / m) ≤ c

/-- a step of the iteration with an error -/
def NoisyStep (F p : ℝ → ℝ) (q a h x x' : ℝ) : Prop := |x' - (x - (F x - q) / p x)| ≤ a + h / p x

/-- what holds after `k` steps -/
def NoisyInv (F p : ℝ → ℝ) (c q xs m M a h : ℝ) (k : ℕ) (x : ℝ) : Prop :=
  x ≤ c ∧ q - (M * a + h) ≤ F x ∧
    ((F x - q) * p x ≤ (0.261 : ℝ) ^ k * (M / 2) ∨ x - xs ≤ (50 + k) * ((M * a + h) / m))

namespace NoisySide
variable {F p : ℝ → ℝ} {c q xs m M a h : ℝ}

theorem M0 (H : NoisySide F p c q xs m M a h) : 0 < M := (H.good.pos c).trans_le H.peak

theorem W0 (H : NoisySide F p c q xs m M a h) : 0 ≤ (M * a + h) / m :=
  div_nonneg (add_nonneg (mul_nonneg H.M0.le H.a0) H.h0) H.m0.le

/-- tangents lie below the distribution function, left of the centre -/
theorem tangent (H : NoisySide F p c q xs m M a h) {x y : ℝ} (hx : x ≤ c) (hy : y ≤ c) : F x + p x * (y - x) ≤ F y := by
  rcases lt_trichotomy x y with hxy | rfl | hxy
  · obtain ⟨ξ, h1, h2, e⟩ := H.good.slope hxy
    have := H.peaked.mono_left (x := x) (y := ξ) (by linarith) h1.le
    nlinarith
  · simp
  · obtain ⟨ξ, h1, h2, e⟩ := H.good.slope hxy
    have := H.peaked.mono_left (x := ξ) (y := x) hx h2.le
    nlinarith

theorem xs_le (H : NoisySide F p c q xs m M a h) : xs ≤ c := by linarith [H.room, H.W0]

theorem m_le_xs (H : NoisySide F p c q xs m M a h) : m ≤ p xs :=
  H.low xs H.xs_le (by rw [H.root]; linarith [mul_nonneg H.M0.le H.a0, H.h0])

theorem noise_le (H : NoisySide F p c q xs m M a h) {x : ℝ} (hm : m ≤ p x) :
    p x * (a + h / p x) ≤ M * a + h ∧ a + h / p x ≤ (M * a + h) / m := by
  have hp := H.good.pos x
  have hM : p x ≤ M := (H.peaked.le_peak x).trans H.peak
  have e : p x * (a + h / p x) = p x * a + h := by field_simp
  refine ⟨by rw [e]; nlinarith [H.a0], ?_⟩
  rw [le_div_iff₀ H.m0]
  have h1 : (a + h / p x) * m ≤ (a + h / p x) * p x :=
    mul_le_mul_of_nonneg_left hm (add_nonneg H.a0 (div_nonneg H.h0 hp.le))
  nlinarith [H.a0]

/-- the distance to the quantile from the residual -/
theorem dist_le (H : NoisySide F p c q xs m M a h) {x : ℝ} (hx : x ≤ c) (h0 : 0 ≤ F x - q) : m * (x - xs) ≤ F x - q := by
  have := H.tangent H.xs_le hx
  rw [H.root] at this
  have hxs : xs ≤ x := by
    rw [← H.good.strictMono.le_iff_le, H.root]; linarith
  nlinarith [H.m_le_xs]

theorem start (H : NoisySide F p c q xs m M a h) (hq : 0 ≤ q) : NoisyInv F p c q xs m M a h 0 c := by
  have hc : F c = 1 / 2 := H.good.half_of_symm c H.peaked.symm
  have : q ≤ F c := by rw [← H.root]; exact H.good.strictMono.monotone H.xs_le
  refine ⟨le_rfl, by linarith [mul_nonneg H.M0.le H.a0, H.h0], .inl ?_⟩
  rw [pow_zero, one_mul, hc]
  have := H.peak
  have := H.good.pos c
  nlinarith

theorem step (H : NoisySide F p c q xs m M a h) {k : ℕ} {x x' : ℝ} (hI : NoisyInv F p c q xs m M a h k x)
    (hs : NoisyStep F p q a h x x') : NoisyInv F p c q xs m M a h (k + 1) x' := by
  obtain ⟨hx, hF, hAB⟩ := hI
  have hm := H.low x hx hF
  obtain ⟨n1, n2⟩ := H.noise_le hm
  have hW := H.W0
  have hp := H.good.pos x
  have hmW : m * ((M * a + h) / m) = M * a + h := mul_div_cancel₀ _ H.m0.ne'
  have hm0 := H.m0
  have hroom := H.room
  unfold NoisyStep at hs
  have hdist := H.dist_le hx
  unfold NoisyInv
  generalize (M * a + h) / m = W at *
  have hZ : 0 ≤ a + h / p x := add_nonneg H.a0 (div_nonneg H.h0 hp.le)
  generalize a + h / p x = Z at *
  obtain ⟨s1, s2⟩ := abs_le.1 hs
  have ee : p x * ((F x - q) / p x) = F x - q := mul_div_cancel₀ _ hp.ne'
  generalize hst : (F x - q) / p x = t at *
  push_cast
  have hk : (0 : ℝ) ≤ k := Nat.cast_nonneg k
  have hkW : 0 ≤ (k : ℝ) * W := mul_nonneg hk hW
  -- the new point is below the centre
  have lower : x' ≤ c → q - (M * a + h) ≤ F x' := by
    intro hx'
    have := H.tangent hx hx'
    nlinarith
  rcases lt_or_ge (F x - q) 0 with hneg | hpos
  · have hxxs : x < xs := by
      rw [← H.good.strictMono.lt_iff_lt, H.root]; linarith
    have ht : -t ≤ W := by
      by_contra hlt
      push Not at hlt
      nlinarith
    have hle : x' ≤ xs + 2 * W := by linarith
    exact ⟨hle.trans hroom, lower (hle.trans hroom), .inr (by linarith)⟩
  · have ht0 : 0 ≤ t := by
      rw [← hst]; exact div_nonneg hpos hp.le
    specialize hdist hpos
    have hx'c : x' ≤ c := by
      rcases le_or_gt Z t with h1 | h1
      · linarith
      · have : x - xs ≤ W := by
          by_contra hlt
          push Not at hlt
          nlinarith
        linarith
    refine ⟨hx'c, lower hx'c, ?_⟩
    rcases lt_or_ge t (50 * Z) with hlt | hge
    · right
      have : x - xs ≤ 50 * W := by
        by_contra hlt'
        push Not at hlt'
        nlinarith
      linarith
    · have hx'x : x' ≤ x := by linarith
      rcases hAB with hA | hB
      · rcases le_or_gt x' xs with hle | hgt
        · right
          have : x' - xs ≤ 0 := by linarith
          linarith
        · left
          have hp' := H.good.pos x'
          have hpp : p x' ≤ p x := H.peaked.mono_left hx hx'x
          have htan := H.tangent hx'c hx
          have e1 : F x' - q ≤ p x * t - p x' * (t - Z) := by nlinarith
          have e2 : p x' * Z ≤ p x * t / 50 := by nlinarith
          have e3 : F x' - q ≤ t * (1.02 * p x - p x') := by nlinarith
          have e4 : (F x' - q) * p x' ≤ t * (1.02 * p x - p x') * p x' := mul_le_mul_of_nonneg_right e3 hp'.le
          have e5 : (1.02 * p x - p x') * p x' ≤ 0.261 * p x ^ 2 := by nlinarith [sq_nonneg (p x' - 0.51 * p x), sq_nonneg (p x)]
          have e6 : t * ((1.02 * p x - p x') * p x') ≤ t * (0.261 * p x ^ 2) := mul_le_mul_of_nonneg_left e5 ht0
          have e7 : t * (0.261 * p x ^ 2) = 0.261 * ((F x - q) * p x) := by rw [← ee]; ring
          rw [pow_succ]
          nlinarith
      · right
        linarith

/-- the length of the next step without errors -/
theorem short (H : NoisySide F p c q xs m M a h) {k : ℕ} {x : ℝ} (hI : NoisyInv F p c q xs m M a h k x) :
    |(F x - q) / p x| ≤ max ((0.261 : ℝ) ^ k * (M / 2) / m ^ 2) ((50 + k) * ((M * a + h) / m)) := by
  obtain ⟨hx, hF, hAB⟩ := hI
  have hm := H.low x hx hF
  have hp := H.good.pos x
  have hm0 := H.m0
  have hW := H.W0
  have hmW : m * ((M * a + h) / m) = M * a + h := mul_div_cancel₀ _ H.m0.ne'
  generalize (M * a + h) / m = W at *
  have hk : (0 : ℝ) ≤ k := Nat.cast_nonneg k
  have hkW : 0 ≤ (k : ℝ) * W := mul_nonneg hk hW
  rw [abs_div, abs_of_pos hp]
  rcases lt_or_ge (F x - q) 0 with hneg | hpos
  · refine le_max_of_le_right ?_
    rw [abs_of_neg hneg, div_le_iff₀ hp]
    nlinarith
  · rw [abs_of_nonneg hpos]
    rcases hAB with hA | hB
    · refine le_max_of_le_left ?_
      have h1 : m ^ 2 ≤ p x ^ 2 := by nlinarith
      have h2 : (F x - q) / p x = (F x - q) * p x / p x ^ 2 := by field_simp
      rw [h2]
      refine (div_le_div_of_nonneg_left (mul_nonneg hpos hp.le) (by positivity) h1).trans ?_
      exact div_le_div_of_nonneg_right hA (by positivity)
    · refine le_max_of_le_right ((?_ : _ ≤ x - xs).trans hB)
      rw [div_le_iff₀ hp]
      have := H.tangent hx H.xs_le
      rw [H.root] at this
      linarith

end NoisySide

end Ries
