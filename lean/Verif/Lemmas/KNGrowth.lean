import Verif.Lemmas.KleinNishina

/-! # The Klein-Nishina cross section falls more slowly than 1/E -/

namespace Ries.KN
open Real

/-- at a fixed angle, the energy times the cross section, as a function of the ratio of the energies -/
theorem falloff {q r s : ℝ} (hq0 : 0 ≤ q) (hq1 : q ≤ 1) (h : r < s) :
    (1 - s) * (s ^ 2 + 1 - s * q) < (1 - r) * (r ^ 2 + 1 - r * q) := by
  have e : (1 - r) * (r ^ 2 + 1 - r * q) - (1 - s) * (s ^ 2 + 1 - s * q) =
      (s - r) * ((s + r) ^ 2 - s * r - (1 + q) * (s + r - 1)) := by ring
  have h1 : s * r ≤ (s + r) ^ 2 / 4 := by nlinarith [sq_nonneg (s - r)]
  have h2 : 0 < (s + r) ^ 2 - s * r - (1 + q) * (s + r - 1) := by
    rcases le_total 1 (s + r) with h3 | h3
    · have : (1 + q) * (s + r - 1) ≤ 2 * (s + r - 1) := by
        apply mul_le_mul_of_nonneg_right <;> linarith
      nlinarith [sq_nonneg (s + r - 4 / 3)]
    · have : (1 + q) * (s + r - 1) ≤ 1 * (s + r - 1) := mul_le_mul_of_nonpos_right (by linarith) (by linarith)
      nlinarith [sq_nonneg (s + r - 2 / 3)]
  nlinarith [mul_pos (sub_pos.2 h) h2]

theorem mul_ang {x θ : ℝ} (hx : 0 ≤ x) (hc : cos θ < 1) :
    x * ang (rat x θ) θ = sin θ / (1 - cos θ) *
      ((1 - rat x θ) * (rat x θ ^ 2 + 1 - rat x θ * sin θ ^ 2)) := by
  have ht := (lt_of_lt_of_le one_pos (t_pos hx θ)).ne'
  have hc' : 1 - cos θ ≠ 0 := (sub_pos.2 hc).ne'
  unfold ang rat
  generalize sin θ = s at *
  generalize hu : 1 - cos θ = u at *
  field_simp
  ring

/-- the energy times the total cross section increases strictly -/
theorem mul_angInt_strictMono : StrictMonoOn (fun x => x * angInt x) (Set.Ici 0) := by
  intro x hx y hy hxy
  simp only [Set.mem_Ici] at hx hy
  have key : ∀ θ, 0 < θ → θ < π → x * ang (rat x θ) θ < y * ang (rat y θ) θ := by
    intro θ h0 h1
    have hc := cos_lt_one h0 h1
    rw [mul_ang hx hc, mul_ang hy hc]
    exact mul_lt_mul_of_pos_left (falloff (sq_nonneg _) (sin_sq_le_one θ) (rat_strictAnti hc hx hy hxy))
      (div_pos (sin_pos_of_pos_of_lt_pi h0 h1) (sub_pos.2 hc))
  simp only [angInt, ← intervalIntegral.integral_const_mul]
  refine intervalIntegral.integral_lt_integral_of_continuousOn_of_le_of_exists_lt pi_pos
    ((ang_cont hx).const_mul x).continuousOn ((ang_cont hy).const_mul y).continuousOn ?_
    ⟨π / 2, ⟨by positivity, by linarith [pi_pos]⟩, key _ (by positivity) (by linarith [pi_pos])⟩
  intro θ hθ
  rcases eq_or_lt_of_le hθ.2 with rfl | h
  · simp [ang]
  · exact (key θ hθ.1 h).le

end Ries.KN
