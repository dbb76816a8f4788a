import Verif.Spec.SumTree
import Verif.Lemmas.Darboux
import Verif.Lemmas.RnMono

/-! # Property C116: Darboux sums in floating point -/

namespace Ries

/-- exact sum over the leaves -/
theorem SumTree.eval_id (v : ℕ → ℝ) (t : SumTree) : t.eval id v = (t.leaves.map v).sum := by
  induction t with
  | leaf i => simp [eval, leaves]
  | node l r hl hr => simp [eval, leaves, hl, hr]

theorem SumTree.Covers.sum {t : SumTree} {n : ℕ} (h : t.Covers n) (v : ℕ → ℝ) : (t.leaves.map v).sum = ∑ i ∈ Finset.range n, v i := by
  rw [(h.map v).sum_eq]
  clear h
  induction n with
  | zero => simp
  | succ n ih => simp [List.range_succ, Finset.sum_range_succ, ih]

theorem dsum_range (g : ℝ → ℝ → ℝ) (x y : ℕ → ℝ) (n : ℕ) :
    dsum g (x 0) ((List.range n).map fun i => x (i + 1)) (y 0) ((List.range n).map fun i => y (i + 1)) =
      ∑ i ∈ Finset.range n, g (y i) (y (i + 1)) * (x (i + 1) - x i) := by
  rw [dsum_eq_sum _ _ _ _ _ (by simp)]
  simp only [List.length_map, List.length_range]
  refine Finset.sum_congr rfl fun i hi => ?_
  have hi := Finset.mem_range.1 hi
  have e : ∀ z : ℕ → ℝ, ∀ j ≤ n, (z 0 :: (List.range n).map fun i => z (i + 1)).getD j 0 = z j := by
    intro z j hj
    cases j with
    | zero => rfl
    | succ j => simp [List.getElem?_range (show j < n by omega)]
  rw [e _ _ hi.le, e _ _ hi, e _ _ hi.le, e _ _ hi]

/-- Without rounding, and for every order of summation, this is the function of C61 – C65. -/
theorem darbouxRounded_exact {t : SumTree} {n : ℕ} (h : t.Covers n) (x y : ℕ → ℝ) :
    darboux (.vals (.arr ((List.range (n + 1)).map y))) ((List.range (n + 1)).map x) = .ok (darbouxRounded id t x y) := by
  have e : ∀ z : ℕ → ℝ, (List.range (n + 1)).map z = z 0 :: (List.range n).map fun i => z (i + 1) := by
    intro z; simp [List.range_succ_eq_map, Function.comp_def]
  rw [e, e, darboux_vals _ _ _ _ (by simp), dsum_range, dsum_range]
  simp only [darbouxRounded, lowerRounded, upperRounded, SumTree.eval_id, id, h.sum]

/-- error of a sum along a tree -/
theorem SumTree.eval_err {fl : ℝ → ℝ} {u g : ℝ} (hu : 0 ≤ u) (hfl : Rounding u fl) {v w M : ℕ → ℝ} (hM : ∀ i, |w i| ≤ M i) 
    (hv : ∀ i, |v i - w i| ≤ (g - 1) * M i) (hg : 1 ≤ g) (t : SumTree) :
    |t.eval fl v - (t.leaves.map w).sum| ≤ (g * (1 + u) ^ t.depth - 1) * (t.leaves.map M).sum ∧
      |(t.leaves.map w).sum| ≤ (t.leaves.map M).sum := by
  have hM0 : ∀ i, 0 ≤ M i := fun i => (abs_nonneg _).trans (hM i)
  have hS0 : ∀ t : SumTree, 0 ≤ (t.leaves.map M).sum := fun t => List.sum_nonneg fun x hx => by
    obtain ⟨i, -, rfl⟩ := List.mem_map.1 hx
    exact hM0 i
  induction t with
  | leaf i => simpa [eval, leaves, depth] using ⟨hv i, hM i⟩
  | node l r hl hr =>
    simp only [eval, leaves, depth, List.map_append, List.sum_append]
    set a := l.eval fl v
    set b := r.eval fl v
    set A := (l.leaves.map w).sum
    set B := (r.leaves.map w).sum
    set SA := (l.leaves.map M).sum
    set SB := (r.leaves.map M).sum
    have hSA : 0 ≤ SA := hS0 l
    have hSB : 0 ≤ SB := hS0 r
    set d := max l.depth r.depth
    have p1 : (1 + u) ^ l.depth ≤ (1 + u) ^ d := pow_le_pow_right₀ (by linarith) (le_max_left _ _)
    have p2 : (1 + u) ^ r.depth ≤ (1 + u) ^ d := pow_le_pow_right₀ (by linarith) (le_max_right _ _)
    have q1 : |a - A| ≤ (g * (1 + u) ^ d - 1) * SA :=
      hl.1.trans (mul_le_mul_of_nonneg_right (by nlinarith) hSA)
    have q2 : |b - B| ≤ (g * (1 + u) ^ d - 1) * SB :=
      hr.1.trans (mul_le_mul_of_nonneg_right (by nlinarith) hSB)
    refine ⟨?_, (abs_add_le _ _).trans (add_le_add hl.2 hr.2)⟩
    have e := hfl (a + b)
    have e2 : |a + b - (A + B)| ≤ (g * (1 + u) ^ d - 1) * (SA + SB) := by
      have : a + b - (A + B) = (a - A) + (b - B) := by ring
      rw [this]
      refine (abs_add_le _ _).trans ?_
      linarith
    have e3 : |a + b| ≤ g * (1 + u) ^ d * (SA + SB) := by
      have h1 : |a + b| ≤ |a + b - (A + B)| + |A + B| := by
        have := abs_add_le (a + b - (A + B)) (A + B)
        simpa using this
      have h2 := (abs_add_le A B).trans (add_le_add hl.2 hr.2)
      linarith
    have e4 := mul_le_mul_of_nonneg_left e3 hu
    calc |fl (a + b) - (A + B)| ≤ |fl (a + b) - (a + b)| + |a + b - (A + B)| := abs_sub_le _ _ _
      _ ≤ u * (g * (1 + u) ^ d * (SA + SB)) + (g * (1 + u) ^ d - 1) * (SA + SB) := add_le_add (e.trans e4) e2
      _ = (g * (1 + u) ^ (d + 1) - 1) * (SA + SB) := by rw [pow_succ]; ring

/-- error of one product -/
theorem leaf_err {fl : ℝ → ℝ} {u ε : ℝ} (hu : 0 ≤ u) (hfl : Rounding u fl) {m m' d M : ℝ} (hε : 0 ≤ ε) (hd : 0 ≤ d) (hm : |m| ≤ M)
    (hm' : |m' - m| ≤ ε * M) : |fl (m' * fl d) - m * d| ≤ ((1 + ε) * (1 + u) ^ 2 - 1) * (M * d) := by
  have hM : 0 ≤ M := (abs_nonneg _).trans hm
  have h1 : |m'| ≤ (1 + ε) * M := by
    have := abs_add_le (m' - m) m
    simp only [sub_add_cancel] at this
    linarith
  have h2 := hfl d
  rw [abs_of_nonneg hd] at h2
  have h3 : |fl d| ≤ (1 + u) * d := by
    have := abs_add_le (fl d - d) d
    simp only [sub_add_cancel, abs_of_nonneg hd] at this
    linarith
  have h4 := hfl (m' * fl d)
  rw [abs_mul] at h4
  have h5 : |m'| * |fl d| ≤ (1 + ε) * M * ((1 + u) * d) := mul_le_mul h1 h3 (abs_nonneg _) (by positivity)
  have h6 : |m' * fl d - m * d| ≤ (1 + ε) * M * (u * d) + ε * M * d := by
    have : m' * fl d - m * d = m' * (fl d - d) + (m' - m) * d := by ring
    rw [this]
    refine (abs_add_le _ _).trans (add_le_add ?_ ?_)
    · rw [abs_mul]; exact mul_le_mul h1 h2 (abs_nonneg _) (by positivity)
    · rw [abs_mul, abs_of_nonneg hd]; exact mul_le_mul_of_nonneg_right hm' hd
  have h7 := mul_le_mul_of_nonneg_left h5 hu
  calc _ ≤ |fl (m' * fl d) - m' * fl d| + |m' * fl d - m * d| := abs_sub_le _ _ _
    _ ≤ u * ((1 + ε) * M * ((1 + u) * d)) + ((1 + ε) * M * (u * d) + ε * M * d) := add_le_add (h4.trans h7) h6
    _ = _ := by ring

/-- C116: in arithmetic of relative accuracy `u`, with function values of relative accuracy `ε` and any order of summation of
depth `d` (20 for pairwise summation of a million numbers), the integral of a piecewise monotone function lies between
the computed lower sum and the sum of both returned values, up to an error of the stated size relative to the sum of
the largest absolute values on the intervals times their lengths. -/
theorem C116_rounded_bracket {fl : ℝ → ℝ} {u ε : ℝ} (hu : 0 ≤ u) (hε : 0 ≤ ε) (hfl : Rounding u fl) {f : ℝ → ℝ} {n : ℕ} {x y : ℕ → ℝ}
    (hx : Monotone x) (hm : ∀ i < n, MonotoneOn f (Set.Icc (x i) (x (i + 1))) ∨ AntitoneOn f (Set.Icc (x i) (x (i + 1))))
    (hy : ∀ i, |y i - f (x i)| ≤ ε * |f (x i)|) {t : SumTree} (ht : t.Covers n) :
    let γ := (1 + ε) * (1 + u) ^ (t.depth + 2) - 1
    let S := ∑ i ∈ Finset.range n, max |f (x i)| |f (x (i + 1))| * (x (i + 1) - x i)
    (darbouxRounded fl t x y).1 - γ * S ≤ ∫ s in x 0..x n, f s ∧
      (∫ s in x 0..x n, f s) ≤ (darbouxRounded fl t x y).1 + (darbouxRounded fl t x y).2 + (γ + 2 * u * (1 + γ)) * S := by
  intro γ S
  set M : ℕ → ℝ := fun i => max |f (x i)| |f (x (i + 1))| * (x (i + 1) - x i) with hMd
  have hd : ∀ i, 0 ≤ x (i + 1) - x i := fun i => sub_nonneg.2 (hx (Nat.le_succ i))
  have hε1 : 1 ≤ (1 + ε) * (1 + u) ^ 2 := by nlinarith [mul_nonneg hu hu, mul_nonneg hε hu, mul_nonneg hε (mul_nonneg hu hu)]
  have key : ∀ (g : ℝ → ℝ → ℝ), (∀ a b, |g a b| ≤ max |a| |b|) → (∀ a b c d, |g a b - g c d| ≤ max |a - c| |b - d|) →
      |t.eval fl (fun i => fl (g (y i) (y (i + 1)) * fl (x (i + 1) - x i))) -
        ∑ i ∈ Finset.range n, g (f (x i)) (f (x (i + 1))) * (x (i + 1) - x i)| ≤ γ * S ∧
      |∑ i ∈ Finset.range n, g (f (x i)) (f (x (i + 1))) * (x (i + 1) - x i)| ≤ S := by
    intro g hg1 hg2
    have := SumTree.eval_err hu hfl (v := fun i => fl (g (y i) (y (i + 1)) * fl (x (i + 1) - x i)))
      (w := fun i => g (f (x i)) (f (x (i + 1))) * (x (i + 1) - x i)) (M := M) (g := (1 + ε) * (1 + u) ^ 2)
      (fun i => by
        rw [abs_mul, abs_of_nonneg (hd i)]
        exact mul_le_mul_of_nonneg_right (hg1 _ _) (hd i))
      (fun i => leaf_err hu hfl hε (hd i) (hg1 _ _) ((hg2 _ _ _ _).trans (by
        rw [mul_max_of_nonneg _ _ hε]
        exact max_le_max (hy i) (hy (i + 1))))) hε1 t
    rw [ht.sum, ht.sum, mul_assoc, ← pow_add, add_comm 2] at this
    exact this
  obtain ⟨l1, l2⟩ := key min (fun a b => abs_min_le_max_abs_abs) (fun a b c d => abs_min_sub_min_le_max a b c d)
  obtain ⟨r1, r2⟩ := key max (fun a b => abs_max_le_max_abs_abs) (fun a b c d => abs_max_sub_max_le_max a b c d)
  set L := ∑ i ∈ Finset.range n, min (f (x i)) (f (x (i + 1))) * (x (i + 1) - x i)
  set U := ∑ i ∈ Finset.range n, max (f (x i)) (f (x (i + 1))) * (x (i + 1) - x i)
  set L' := lowerRounded fl t x y with hL'
  set U' := upperRounded fl t x y with hU'
  have hLI : L ≤ ∫ s in x 0..x n, f s ∧ (∫ s in x 0..x n, f s) ≤ U := by
    have hint : ∀ i < n, IntervalIntegrable f MeasureTheory.volume (x i) (x (i + 1)) := fun i hi =>
      MonoPiece.integrable (hx (Nat.le_succ i)) (hm i hi)
    rw [← intervalIntegral.sum_integral_adjacent_intervals hint]
    constructor
    · refine Finset.sum_le_sum fun i hi => ?_
      have hi := Finset.mem_range.1 hi
      have := intervalIntegral.integral_mono_on (μ := MeasureTheory.volume) (hx (Nat.le_succ i)) (by simp) (hint i hi)
        (fun s hs => (MonoPiece.bounds (hm i hi) hs).1)
      simpa [mul_comm] using this
    · refine Finset.sum_le_sum fun i hi => ?_
      have hi := Finset.mem_range.1 hi
      have := intervalIntegral.integral_mono_on (μ := MeasureTheory.volume) (hx (Nat.le_succ i)) (hint i hi) (by simp)
        (fun s hs => (MonoPiece.bounds (hm i hi) hs).2)
      simpa [mul_comm] using this
  have l1' : |L' - L| ≤ γ * S := l1
  have r1' : |U' - U| ≤ γ * S := r1
  have a1 := abs_le.1 l1'
  have a2 := abs_le.1 r1'
  have a3 := abs_le.1 l2
  have a4 := abs_le.1 r2
  refine ⟨?_, ?_⟩
  · show L' - γ * S ≤ _
    linarith [hLI.1]
  · show _ ≤ L' + |fl (U' - L')| + _
    have h1 := hfl (U' - L')
    have h2 : |U' - L'| ≤ 2 * (1 + γ) * S := by rw [abs_le]; constructor <;> linarith
    have h3 := h1.trans (mul_le_mul_of_nonneg_left h2 hu)
    have h4 := le_abs_self (fl (U' - L'))
    have h5 := (abs_le.1 h3).1
    have := hLI.2
    linarith

/-- Pairwise summation of four values of the function 1 / x on the grid 1, 2, 3, 4, 5, correctly rounded, meets the hypotheses. -/
example : (SumTree.node (.node (.leaf 0) (.leaf 1)) (.node (.leaf 2) (.leaf 3))).Covers 4 ∧
    (SumTree.node (.node (.leaf 0) (.leaf 1)) (.node (.leaf 2) (.leaf 3))).depth = 2 ∧ Rounding (1 / 2 ^ 53) KN.rn ∧
    (∀ i : ℕ, |KN.rn (1 / ((i : ℝ) + 1)) - 1 / ((i : ℝ) + 1)| ≤ 1 / 2 ^ 53 * |1 / ((i : ℝ) + 1)|) ∧
    ∀ i < 4, MonotoneOn (fun s : ℝ => 1 / s) (Set.Icc ((i : ℕ) + 1 : ℝ) (((i + 1 : ℕ) : ℝ) + 1)) ∨
      AntitoneOn (fun s : ℝ => 1 / s) (Set.Icc ((i : ℕ) + 1 : ℝ) (((i + 1 : ℕ) : ℝ) + 1)) := by
  refine ⟨List.Perm.refl _, rfl, KN.rn_rounding, fun i => KN.rn_rounding _, fun i _ => .inr fun a ha b hb hab => ?_⟩
  have : (0 : ℝ) ≤ i := Nat.cast_nonneg i
  exact one_div_le_one_div_of_le (by linarith [ha.1]) hab

end Ries
