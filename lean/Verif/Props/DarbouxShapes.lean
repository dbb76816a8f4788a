import Verif.Model.DarbouxShapes
import Verif.Props.Darboux

/-! # Property C168: Darboux sums of two-dimensional arrays -/

namespace Ries

/-- a column vector, `x[:, None]` -/
def Arr2.column (x : List ℝ) : Arr2 := .mat (x.map fun a => [a]) 1

theorem flatten_column (x : List ℝ) : (x.map fun a => [a]).flatten = x := by
  induction x with
  | nil => rfl
  | cons a x ih => simp [ih]

theorem diffsFrom_sum (a : ℝ) (l : List ℝ) : (diffsFrom a l).sum = (a :: l).getLast (by simp) - a := by
  induction l generalizing a with
  | nil => simp [diffsFrom]
  | cons b l ih => simp only [diffsFrom, List.sum_cons, ih, List.getLast_cons_cons]; ring

theorem sum_map_mul_right' (m : List ℝ) (d : ℝ) : (m.map (· * d)).sum = m.sum * d := by
  induction m with
  | nil => simp
  | cons a m ih => simp [ih]; ring

theorem sum_map_mul_left' (m : List ℝ) (d : ℝ) : (m.map (d * ·)).sum = d * m.sum := by
  induction m with
  | nil => simp
  | cons a m ih => simp [ih]; ring

theorem sum_outer (m dx : List ℝ) : (dx.flatMap fun d => m.map (· * d)).sum = m.sum * dx.sum := by
  induction dx with
  | nil => simp
  | cons d dx ih => simp only [List.flatMap_cons, List.sum_append, ih, sum_map_mul_right', List.sum_cons]; ring

theorem steps_column (x : List ℝ) : (Arr2.column x).steps = (diffs x, some 1) := by
  simp only [Arr2.steps, Arr2.column, flatten_column, diffs]

/-- all products of values and steps are added -/
theorem sumProduct_column (m : List ℝ) (x : ℝ) (xs : List ℝ) :
    Arr2.sumProduct m (Arr2.column (x :: xs)).steps = .ok (m.sum * ((x :: xs).getLast (by simp) - x)) := by
  rw [steps_column, diffs_cons, Arr2.sumProduct, ← diffsFrom_sum]
  by_cases h : m.length = 1
  · obtain ⟨a, rfl⟩ := List.length_eq_one_iff.1 h
    rw [if_pos rfl]
    have : ((diffsFrom x xs).mapIdx fun t d => [a].getD (t % 1) 0 * d) = (diffsFrom x xs).map (a * ·) := by
      rw [List.mapIdx_eq_zipIdx_map]
      simp only [Nat.mod_one, List.getD_cons_zero]
      calc _ = ((diffsFrom x xs).zipIdx.map Prod.fst).map (a * ·) := by rw [List.map_map]; rfl
        _ = _ := by rw [List.zipIdx_map_fst]
    rw [this, sum_map_mul_left']
    simp
  · rw [if_neg h, if_neg h, if_pos rfl, sum_outer]

/-- C168 is false of the code: a partition given as a column and values given as a row are accepted, whatever their lengths are.  The
"lower sum" is the product of the length of the range and the SUM of all minima: for a constant and `n` intervals `n` times the
integral, with a gap of 0. -/
theorem C168_refuted (y x : ℝ) (ys xs : List ℝ) :
    (∃ gap, darbouxNd (.vals (.vec (y :: ys))) (Arr2.column (x :: xs)) =
      .ok ((List.zipWith min (y :: ys) ys).sum * ((x :: xs).getLast (by simp) - x), gap)) ∧
    ∀ (c : ℝ) (n : ℕ), darbouxNd (.vals (.vec (List.replicate (n + 1) c))) (Arr2.column (x :: xs)) =
      .ok (n * (c * ((x :: xs).getLast (by simp) - x)), 0) := by
  have key : ∀ (y : ℝ) (ys : List ℝ), darbouxNd (.vals (.vec (y :: ys))) (Arr2.column (x :: xs)) =
      .ok ((pairsWith min y ys).sum * ((x :: xs).getLast (by simp) - x),
        |(pairsWith max y ys).sum * ((x :: xs).getLast (by simp) - x) -
          (pairsWith min y ys).sum * ((x :: xs).getLast (by simp) - x)|) := by
    intro y ys
    simp only [darbouxNd, Arr2.neighbours, Bind.bind, Except.bind, zipWith_dropLast, sumProduct_column]
  refine ⟨?_, fun c n => ?_⟩
  · rw [key]
    have : List.zipWith min (y :: ys) ys = pairsWith min y ys := by
      clear key
      induction ys generalizing y with
      | nil => rfl
      | cons b l ih => simp only [List.zipWith_cons_cons, pairsWith, ih b]
    rw [this]
    exact ⟨_, rfl⟩
  · have h : ∀ g : ℝ → ℝ → ℝ, g c c = c → (pairsWith g c (List.replicate n c)).sum = n * c := by
      intro g hg
      induction n with
      | zero => simp [pairsWith]
      | succ n ih => simp only [List.replicate_succ, pairsWith, hg, List.sum_cons, ih]; push_cast; ring
    rw [List.replicate_succ, key, h min (min_self c), h max (max_self c), sub_self, abs_zero, mul_assoc]

/-- C168: which partitions with two axes are accepted together with values on one axis: those with one column, those with as many columns
as there are intervals between the values, and all of them for a single interval. -/
theorem C168_accepted_iff (y : List ℝ) (rows : List (List ℝ)) (cols : ℕ) :
    (∃ r, darbouxNd (.vals (.vec y)) (.mat rows cols) = .ok r) ↔ y ≠ [] ∧ (y.length = cols + 1 ∨ y.length = 2 ∨ cols = 1) := by
  cases y with
  | nil => simp [darbouxNd, Arr2.neighbours, Bind.bind, Except.bind]
  | cons y ys =>
    simp only [darbouxNd, Arr2.neighbours, Bind.bind, Except.bind, zipWith_dropLast, Arr2.steps, Arr2.sumProduct, pairsWith_length,
      ne_eq, reduceCtorEq, not_false_eq_true, true_and, List.length_cons, Nat.add_right_cancel_iff]
    by_cases h1 : ys.length = cols
    · simp [h1]
    · by_cases h2 : ys.length = 1
      · simp only [if_neg h1, if_pos h2]
        simp [h2]
      · by_cases h3 : cols = 1
        · simp only [if_neg h1, if_neg h2, if_pos h3]
          simp [h3]
        · simp only [if_neg h1, if_neg h2, if_neg h3]
          simp [h1, h2, h3]

/-- C168, the part that holds: a function (working entry by entry) on a matrix, or a matrix of values, is rejected with a `ValueError`, except
for a column with two entries, which is treated like the vector with these entries; vectors are treated as in C61 to C65. -/
theorem C168_partial (f : ℝ → ℝ) :
    (∀ rows cols, (∀ a b, ¬ (rows = [[a], [b]] ∧ cols = 1)) → (Arr2.mat rows cols).WF →
      darbouxNd (.fn f) (.mat rows cols) = .error .valueError ∧ ∀ x, darbouxNd (.vals (.mat rows cols)) x = .error .valueError) ∧
    (∀ a b, darbouxNd (.fn f) (Arr2.column [a, b]) = darboux (vectorised f) [a, b]) ∧
    (∀ x, x ≠ [] → darbouxNd (.fn f) (.vec x) = darboux (vectorised f) x) ∧
    ∀ x y, darbouxNd (.vals (.vec y)) (.vec x) = darboux (.vals (.arr y)) x := by
  have hv : ∀ x y, darbouxNd (.vals (.vec y)) (.vec x) = darboux (.vals (.arr y)) x := by
    intro x y
    cases y with
    | nil => rfl
    | cons y ys =>
      simp only [darbouxNd, darboux, Arr2.neighbours, Arr2.sumProduct, Arr2.steps, Bind.bind, Except.bind]
      cases bmul (List.zipWith min (y :: ys).dropLast (List.drop 1 (y :: ys))) (diffs x) with
      | error e => rfl
      | ok l =>
        simp only [Except.map]
        cases bmul (List.zipWith max (y :: ys).dropLast (List.drop 1 (y :: ys))) (diffs x) <;> rfl
  refine ⟨fun rows cols h hw => ?_, fun a b => ?_, fun x hx => ?_, hv⟩
  · have hn : ∀ rows cols, (∀ a b, ¬ (rows = [[a], [b]] ∧ cols = 1)) → (Arr2.mat rows cols).WF →
        (Arr2.mat rows cols).neighbours = .error .valueError := by
      intro rows cols h hw
      unfold Arr2.neighbours
      split
      · rename_i e; cases e
      · rename_i e; cases e
      · rename_i r s e
        obtain ⟨e1, e2⟩ := Arr2.mat.inj e
        subst e1; subst e2
        obtain ⟨a, rfl⟩ := List.length_eq_one_iff.1 (hw r (by simp))
        obtain ⟨b, rfl⟩ := List.length_eq_one_iff.1 (hw s (by simp))
        exact absurd ⟨rfl, rfl⟩ (h a b)
      · rfl
    refine ⟨?_, fun x => ?_⟩
    · have := hn (rows.map fun r => r.map f) cols (by
        rintro a b ⟨h1, h2⟩
        match rows, h1, h with
        | [], h1, _ => simp at h1
        | [_], h1, _ => simp at h1
        | _ :: _ :: _ :: _, h1, _ => simp at h1
        | [r, s], h1, h =>
          simp only [List.map_cons, List.map_nil, List.cons.injEq, and_true] at h1
          have l1 : r.length = 1 := by rw [← List.length_map (f := f), h1.1]; rfl
          have l2 : s.length = 1 := by rw [← List.length_map (f := f), h1.2]; rfl
          obtain ⟨a', rfl⟩ := List.length_eq_one_iff.1 l1
          obtain ⟨b', rfl⟩ := List.length_eq_one_iff.1 l2
          exact h a' b' ⟨rfl, h2⟩) (by
        intro r hr
        obtain ⟨r', hr', rfl⟩ := List.mem_map.1 hr
        rw [List.length_map]
        exact hw r' hr')
      simp only [darbouxNd, Arr2.map, this, Bind.bind, Except.bind]
    · simp only [darbouxNd, hn rows cols h hw, Bind.bind, Except.bind]
  · rw [darboux_fun]
    have e : (Arr2.column [a, b]).map f = .mat [[f a], [f b]] 1 := rfl
    simp only [darbouxNd, e, Arr2.neighbours, Bind.bind, Except.bind, sumProduct_column]
    simp [dsum]
  · cases x with
    | nil => exact absurd rfl hx
    | cons x xs =>
      have := hv (x :: xs) ((x :: xs).map f)
      exact this

/-- A matrix with three rows and two columns is such a case; a column of four energies and three values is accepted. -/
example : (Arr2.mat [[1, 2], [3, 4], [5, 6]] 2).WF ∧ (∀ a b : ℝ, ¬ (([[1, 2], [3, 4], [5, 6]] : List (List ℝ)) = [[a], [b]] ∧ 2 = 1)) ∧
    ∃ r, darbouxNd (.vals (.vec [1, 1, 1])) (Arr2.column [0, 1, 2, 3]) = .ok r := by
  refine ⟨by simp [Arr2.WF], by simp, (C168_accepted_iff _ _ _).2 (by simp)⟩

end Ries
