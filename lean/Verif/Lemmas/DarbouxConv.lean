import Verif.Lemmas.Darboux
import Verif.Lemmas.Newton
import Mathlib.MeasureTheory.Integral.IntervalIntegral.Basic
import Mathlib.MeasureTheory.Integral.DominatedConvergence
import Mathlib.Topology.UniformSpace.HeineCantor

/-!
# Convergence of Darboux sums
-/

open MeasureTheory Set

namespace Ries

/-- On `[s, t]` the oscillation of `f` times the length is at most the increase of `ψ`. -/
def SmallPiece (f ψ : ℝ → ℝ) (s t : ℝ) : Prop :=
  s ≤ t ∧ IntervalIntegrable f volume s t ∧ ∀ u ∈ Icc s t, ∀ v ∈ Icc s t, |f u - f v| * (t - s) ≤ ψ t - ψ s

theorem dsum_near {f ψ g : _} (hg : ∀ y y' : ℝ, g y y' = y ∨ g y y' = y') (x : ℝ) (xs : List ℝ)
    (h : (x :: xs).IsChain (SmallPiece f ψ)) :
    IntervalIntegrable f volume x ((x :: xs).getLast (by simp)) ∧
    |dsum g x xs (f x) (xs.map f) - ∫ t in x..((x :: xs).getLast (by simp)), f t| ≤ ψ ((x :: xs).getLast (by simp)) - ψ x := by
  induction xs generalizing x with
  | nil => simp [dsum]
  | cons x' xs ih =>
    obtain ⟨⟨h1, h2, h3⟩, h4⟩ := List.isChain_cons_cons.1 h
    obtain ⟨i1, i2⟩ := ih x' h4
    simp only [List.getLast_cons_cons, List.map_cons, dsum]
    refine ⟨h2.trans i1, ?_⟩
    rw [← intervalIntegral.integral_add_adjacent_intervals h2 i1]
    have hmem : x ∈ Icc x x' := ⟨le_rfl, h1⟩
    have hmem' : x' ∈ Icc x x' := ⟨h1, le_rfl⟩
    obtain ⟨u, hu, e⟩ : ∃ u ∈ Icc x x', g (f x) (f x') = f u := by
      rcases hg (f x) (f x') with e | e
      · exact ⟨x, hmem, e⟩
      · exact ⟨x', hmem', e⟩
    rw [e]
    have hpiece : |f u * (x' - x) - ∫ t in x..x', f t| ≤ ψ x' - ψ x := by
      rcases h1.eq_or_lt with rfl | hlt
      · simp
      have e2 : f u * (x' - x) - ∫ t in x..x', f t = ∫ t in x..x', (f u - f t) := by
        rw [intervalIntegral.integral_sub (by simp) h2]
        simp [mul_comm]
      rw [e2, ← Real.norm_eq_abs]
      have hd : 0 < x' - x := by linarith
      have := intervalIntegral.norm_integral_le_of_norm_le_const (a := x) (b := x') (f := fun t => f u - f t) (C := (ψ x' - ψ x) / (x' - x))
        (by
          intro t ht
          rw [uIoc_of_le h1] at ht
          rw [Real.norm_eq_abs, le_div_iff₀ hd]
          exact h3 u hu t ⟨ht.1.le, ht.2⟩)
      rw [abs_of_pos hd, div_mul_cancel₀ _ hd.ne'] at this
      exact this
    have e3 : f u * (x' - x) + dsum g x' xs (f x') (xs.map f) -
        ((∫ t in x..x', f t) + ∫ t in x'..((x' :: xs).getLast (by simp)), f t) =
        (f u * (x' - x) - ∫ t in x..x', f t) +
          (dsum g x' xs (f x') (xs.map f) - ∫ t in x'..((x' :: xs).getLast (by simp)), f t) := by ring
    rw [e3]
    refine (abs_add_le _ _).trans ?_
    linarith

/-- Both sums that `darboux` returns are near the integral. -/
theorem darboux_near {f ψ : ℝ → ℝ} (x : ℝ) (xs : List ℝ) (h : (x :: xs).IsChain (SmallPiece f ψ)) :
    ∃ L D, darboux (vectorised f) (x :: xs) = .ok (L, D) ∧ 0 ≤ D ∧
      |L - ∫ t in x..((x :: xs).getLast (by simp)), f t| ≤ ψ ((x :: xs).getLast (by simp)) - ψ x ∧
      |L + D - ∫ t in x..((x :: xs).getLast (by simp)), f t| ≤ ψ ((x :: xs).getLast (by simp)) - ψ x := by
  refine ⟨_, _, darboux_fun f x xs, abs_nonneg _, (dsum_near (fun y y' => min_choice y y') x xs h).2, ?_⟩
  have hx : (x :: xs).IsChain (· ≤ ·) := h.imp fun _ _ h => h.1
  have hle : dsum min x xs (f x) (xs.map f) ≤ dsum max x xs (f x) (xs.map f) :=
    dsum_le (fun a b => min_le_max) x (f x) xs (xs.map f) hx
  have e : |dsum max x xs (f x) (xs.map f) - dsum min x xs (f x) (xs.map f)| =
      dsum max x xs (f x) (xs.map f) - dsum min x xs (f x) (xs.map f) := abs_of_nonneg (by linarith)
  rw [e, add_sub_cancel]
  exact (dsum_near (fun y y' => max_choice y y') x xs h).2

/-- variation of a function with a single peak -/
noncomputable def peakVar (c : ℝ) (f : ℝ → ℝ) (t : ℝ) : ℝ := if t ≤ c then f t else 2 * f c - f t

theorem peakVar_bound {c : ℝ} {f : ℝ → ℝ} (hp : Peaked c f) {s t : ℝ} (u : ℝ) (hu : u ∈ Icc s t) (v : ℝ) (hv : v ∈ Icc s t) :
    |f u - f v| ≤ peakVar c f t - peakVar c f s := by
  wlog h : u ≤ v generalizing u v
  · rw [abs_sub_comm]; exact this v hv u hu (by linarith)
  have left : ∀ a b, a ≤ b → b ≤ c → f a ≤ f b := fun a b h1 h2 => by
    rcases h1.eq_or_lt with rfl | h1
    · exact le_rfl
    · exact (hp.mono_left h2 h1.le)
  have right : ∀ a b, c ≤ a → a ≤ b → f b ≤ f a := fun a b h1 h2 => by
    rcases h2.eq_or_lt with rfl | h2
    · exact le_rfl
    · exact (hp.anti_right h1 h2.le)
  have pu := hp.le_peak u
  have pv := hp.le_peak v
  have ps := hp.le_peak s
  have pt := hp.le_peak t
  have step : |f u - f v| ≤ peakVar c f v - peakVar c f u := by
    unfold peakVar
    split_ifs with h1 h2 h2
    · have := left u v h h1
      rw [abs_of_nonpos (by linarith)]; linarith
    · linarith
    · rw [abs_le]; constructor <;> linarith
    · have := right u v (by linarith) h
      rw [abs_of_nonneg (by linarith)]; linarith
  have mono : ∀ a b, a ≤ b → peakVar c f a ≤ peakVar c f b := by
    intro a b hab
    have pa := hp.le_peak a
    have pb := hp.le_peak b
    unfold peakVar
    split_ifs with h1 h2 h2
    · exact left a b hab h2
    · linarith
    · linarith
    · have := right a b (by linarith) hab
      linarith
  have m1 := mono s u hu.1
  have m2 := mono v t hv.2
  linarith

theorem peakVar_total {c : ℝ} {f : ℝ → ℝ} (hp : Peaked c f) (hpos : ∀ x, 0 < f x) (s t : ℝ) :
    peakVar c f t - peakVar c f s ≤ 2 * f c := by
  have ps := hp.le_peak s
  have pt := hp.le_peak t
  have h1 := hpos s
  have h2 := hpos t
  have h3 := hpos c
  unfold peakVar
  split_ifs <;> linarith

end Ries
