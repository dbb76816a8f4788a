import Verif.Lemmas.Simplex

/-! # C139: when the inversion by minimization does find the width -/

open Set

namespace Ries

/-- C139, where the search converges: the function decreases strictly up to `w` and increases strictly from there; the first two points are further
apart than the tolerance; the minimum is within six times the start value; and the tolerance is at least the distance 1e-4 of
the start value, and the change of the function over such a distance. Then the search ends by its own criterion, and the result is
within twice the tolerance of the minimum. -/
theorem C139_converges_partial {g : ℝ → ℝ} {w : ℝ} (h1 : StrictAntiOn g (Iic w)) (h2 : StrictMonoOn g (Ici w)) {x tol M : ℝ} (hx : x ≠ 0)
    (hw : |w - x| ≤ 6 * |x|) (hM : 0 ≤ M) (hL : ∀ a b, |g a - g b| ≤ M * |a - b|) (ht : 1e-4 * |x| ≤ tol) (htM : M * (1e-4 * |x|) ≤ tol)
    (hs : tol < 0.05 * |x|) : ∃ y, nelderMead (fun Γ => .ok (g Γ)) x tol = .ok y ∧ |y - w| ≤ 2 * tol := by
  have hU := Simplex.uni_of h1 h2
  have hx0 : 0 < |x| := abs_pos.2 hx
  have hδ : 0.05 * x ≠ 0 := mul_ne_zero (by norm_num) hx
  have hH : |0.05 * x| = 0.05 * |x| := by rw [abs_mul, abs_of_pos (by norm_num : (0 : ℝ) < 0.05)]
  -- the first simplex
  obtain ⟨δ, p, hat, hd, hp⟩ : ∃ δ p, Simplex.At g w p δ (Simplex.sort ⟨x, g x, (1 + 0.05) * x, g ((1 + 0.05) * x), 2⟩) ∧
      |δ| = 0.05 * |x| ∧ p + 2 < 2 ^ (5 + 2) := by
    obtain ⟨q1, q2⟩ := Simplex.sort_at (g := g) (c := 2) hδ (w := w) (x0 := x) (p := (w - x) / (0.05 * x)) (by field_simp; ring) (t := 1) (by norm_num)
      (x1 := (1 + 0.05) * x) (by ring)
    have hq : |(w - x) / (0.05 * x)| ≤ 120 := by
      rw [abs_div, hH, div_le_iff₀ (by positivity)]
      linarith
    have hq' := abs_le.1 hq
    rcases lt_or_ge (g ((1 + 0.05) * x)) (g x) with h | h
    · refine ⟨_, _, q1 h, by rw [one_mul, hH], ?_⟩
      rw [div_one]
      norm_num
      linarith
    · refine ⟨_, _, q2 h, by rw [one_mul, abs_neg, hH], ?_⟩
      rw [div_one]
      norm_num
      linarith
  have hmeas : Simplex.Meas (0.05 * |x|) δ p 28 := by
    have e0 : |δ| = 0.05 * |x| * 2 ^ (0 : ℤ) := by rw [hd]; simp
    rcases lt_or_ge p 1 with h | h
    · exact Simplex.Meas.classify e0 h (by norm_num)
    · exact ⟨0, e0, Or.inr le_rfl, Or.inr (Or.inr (Or.inr ⟨h, 5, hp, by norm_num⟩))⟩
  obtain ⟨t, δ', p', i, k1, k2, k3, k4⟩ := Simplex.loop_at (tol := tol) hU 199 hat hmeas
  have hgt : -1 < p' := (Simplex.step_at hU k2).1
  have hcalls : (Simplex.sort ⟨x, g x, (1 + 0.05) * x, g ((1 + 0.05) * x), 2⟩).calls = 2 := by
    unfold Simplex.sort
    split_ifs <;> rfl
  have hdist : |t.x1 - t.x0| = |δ'| := by rw [k2.x1, ← abs_neg]; congr 1; ring
  obtain ⟨j, hj, hb, hc⟩ := k3
  -- the distance at the end
  have hsmall : t.Small tol := by
    rcases k4 with h | h
    · exact h
    · have hi : 66 ≤ i := by
        rw [hcalls] at h
        rcases h with h | h <;> omega
      have hj9 : j ≤ -9 := by
        rcases hc with ⟨-, h⟩ | ⟨-, -, h⟩ | ⟨-, -, h⟩ | ⟨-, k, -, h⟩ <;> omega
      have hpow : (2 : ℝ) ^ j ≤ 2 ^ (-9 : ℤ) := zpow_le_zpow_right₀ (by norm_num) hj9
      have h9 : (2 : ℝ) ^ (-9 : ℤ) = 1 / 512 := by norm_num
      have hle : |δ'| ≤ 1e-4 * |x| := by
        rw [hj]
        rw [h9] at hpow
        nlinarith
      refine ⟨by rw [hdist]; exact hle.trans ht, ?_⟩
      rw [k2.f0, k2.f1]
      refine (hL _ _).trans (le_trans ?_ htM)
      rw [abs_sub_comm, hdist]
      exact mul_le_mul_of_nonneg_left hle hM
  have hp2 : p' < 2 := by
    rcases hb with h | h
    · exact h
    · exfalso
      have h3 := hsmall.1
      rw [hdist, hj] at h3
      have : (1 : ℝ) ≤ 2 ^ j := one_le_zpow₀ (by norm_num) h
      nlinarith
  refine ⟨t.x0, ?_, ?_⟩
  · simp only [nelderMead, Simplex.start, if_neg hx, Bind.bind, Except.bind, k1]
  · have h3 := hsmall.1
    rw [hdist] at h3
    rw [k2.pos, show t.x0 - (t.x0 + p' * δ') = -(p' * δ') by ring, abs_neg, abs_mul]
    have : |p'| ≤ 2 := abs_le.2 ⟨by linarith, hp2.le⟩
    calc |p'| * |δ'| ≤ 2 * tol := mul_le_mul this h3 (abs_nonneg _) (by norm_num)

/-- C139 for the function of the notebook: a self absorption `R` that is strictly monotonic with slopes of at most `M` and takes the
measured value `r` at `w`. Under the same conditions the measured value is reproduced within `2 M tol`. -/
theorem C139_width_partial {R : ℝ → ℝ} (hR : StrictMono R ∨ StrictAnti R) {M : ℝ} (hL : ∀ a b, |R a - R b| ≤ M * |a - b|) {r w : ℝ} (hr : R w = r)
    {x tol : ℝ} (hx : x ≠ 0) (hw : |w - x| ≤ 6 * |x|) (ht : 1e-4 * |x| ≤ tol) (htM : M * (1e-4 * |x|) ≤ tol) (hs : tol < 0.05 * |x|) :
    ∃ y, nelderMead (misfit R r) x tol = .ok y ∧ |y - w| ≤ 2 * tol ∧ |R y - r| ≤ 2 * M * tol := by
  have hM : 0 ≤ M := by
    have := (abs_nonneg _).trans (hL 1 0)
    simpa using this
  have hL' : ∀ a b, |(|R a - r|) - (|R b - r|)| ≤ M * |a - b| := fun a b => by
    refine (abs_abs_sub_abs_le_abs_sub _ _).trans ?_
    rw [show R a - r - (R b - r) = R a - R b by ring]
    exact hL a b
  have h1 : StrictAntiOn (fun Γ => |R Γ - r|) (Iic w) := by
    intro a ha b hb hab
    simp only
    rcases hR with h | h
    · have e1 : R b ≤ r := by rw [← hr]; exact h.monotone hb
      rw [abs_of_nonpos (by linarith), abs_of_nonpos (by linarith [h hab])]
      linarith [h hab]
    · have e1 : r ≤ R b := by rw [← hr]; exact h.antitone hb
      rw [abs_of_nonneg (by linarith), abs_of_nonneg (by linarith [h hab])]
      linarith [h hab]
  have h2 : StrictMonoOn (fun Γ => |R Γ - r|) (Ici w) := by
    intro a ha b hb hab
    simp only
    rcases hR with h | h
    · have e1 : r ≤ R a := by rw [← hr]; exact h.monotone ha
      rw [abs_of_nonneg (by linarith), abs_of_nonneg (by linarith [h hab])]
      linarith [h hab]
    · have e1 : R a ≤ r := by rw [← hr]; exact h.antitone ha
      rw [abs_of_nonpos (by linarith), abs_of_nonpos (by linarith [h hab])]
      linarith [h hab]
  obtain ⟨y, hy, hyw⟩ := C139_converges_partial h1 h2 hx hw hM hL' ht htM hs
  refine ⟨y, hy, hyw, ?_⟩
  rw [← hr]
  refine (hL y w).trans ?_
  calc M * |y - w| ≤ M * (2 * tol) := mul_le_mul_of_nonneg_left hyw hM
    _ = 2 * M * tol := by ring

/-- The hypotheses hold, for a measured value that needs a search over more than the first two points. -/
example : (StrictMono fun Γ : ℝ => 2 * Γ) ∧ (∀ a b : ℝ, |2 * a - 2 * b| ≤ 2 * |a - b|) ∧ (1 : ℝ) ≠ 0 ∧ |(6.5 : ℝ) - 1| ≤ 6 * |(1 : ℝ)| ∧
    1e-4 * |(1 : ℝ)| ≤ 1e-3 ∧ (2 : ℝ) * (1e-4 * |(1 : ℝ)|) ≤ 1e-3 ∧ (1e-3 : ℝ) < 0.05 * |(1 : ℝ)| := by
  refine ⟨fun a b h => by simp only; linarith, fun a b => ?_, by norm_num, ?_, ?_, ?_, ?_⟩
  · rw [← mul_sub, abs_mul, abs_of_pos (by norm_num : (0 : ℝ) < 2)]
  · rw [abs_of_pos (by norm_num)]; norm_num
  all_goals norm_num

end Ries
