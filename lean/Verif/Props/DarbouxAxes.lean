import Verif.Model.DarbouxAxes
import Verif.Props.DarbouxShapes

/-! # Property C168 for arrays with any number of axes -/

namespace Ries

/-- vectors and matrices as arrays with a list of axes -/
def Arr2.toN : Arr2 → ArrN
  | .vec v => ⟨[v.length], v⟩
  | .mat rows cols => ⟨[rows.length, cols], rows.flatten⟩

theorem ArrN.steps_toN (a : Arr2) : a.toN.steps = .ok a.steps := by
  cases a with
  | vec v => rfl
  | mat rows cols => simp [Arr2.toN, ArrN.steps, Arr2.steps]

theorem ArrN.neighbours_vec (n : ℕ) (e : List ℝ) : (⟨[n + 1], e⟩ : ArrN).neighbours = .ok (e.dropLast, e.drop 1) := by
  match n with
  | 0 => rfl
  | 1 => rfl
  | n + 2 => rfl

theorem ArrN.neighbours_toN {a : Arr2} (h : a.WF) : a.toN.neighbours = a.neighbours := by
  cases a with
  | vec v =>
    cases v with
    | nil => rfl
    | cons y ys => exact ArrN.neighbours_vec _ _
  | mat rows cols =>
    match rows, h with
    | [], _ => simp [Arr2.toN, ArrN.neighbours, Arr2.neighbours]
    | [r], _ => simp [Arr2.toN, ArrN.neighbours, Arr2.neighbours]
    | r :: s :: t :: l, _ => simp [Arr2.toN, ArrN.neighbours, Arr2.neighbours]
    | [r, s], h =>
      by_cases hc : cols = 1
      · subst hc
        obtain ⟨a, rfl⟩ := List.length_eq_one_iff.1 (h r (by simp))
        obtain ⟨b, rfl⟩ := List.length_eq_one_iff.1 (h s (by simp))
        simp [Arr2.toN, ArrN.neighbours, Arr2.neighbours]
      · simp [Arr2.toN, ArrN.neighbours, hc]
        unfold Arr2.neighbours
        split <;> simp_all

/-- On vectors and matrices this is the function of C168. -/
theorem darbouxAny_toN (f : ℝ → ℝ) {x : Arr2} (hx : x.WF) :
    darbouxAny (.fn f) x.toN = darbouxNd (.fn f) x ∧ ∀ v : Arr2, v.WF → darbouxAny (.vals v.toN) x.toN = darbouxNd (.vals v) x := by
  have hm : x.toN.map f = (x.map f).toN := by
    cases x <;> simp [Arr2.toN, ArrN.map, Arr2.map, List.map_flatten]
  have hw : (x.map f).WF := by
    cases x with
    | vec v => trivial
    | mat rows cols =>
      intro r hr
      obtain ⟨r', hr', rfl⟩ := List.mem_map.1 hr
      rw [List.length_map]
      exact hx r' hr'
  refine ⟨?_, fun v hv => ?_⟩
  · simp only [darbouxAny, darbouxNd, hm, ArrN.steps_toN, ArrN.neighbours_toN hw, Bind.bind, Except.bind]
  · simp only [darbouxAny, darbouxNd, ArrN.steps_toN, ArrN.neighbours_toN hv, Bind.bind, Except.bind]

/-- C168, arrays with any number of axes: a function on an array with more than one axis, and an array of values with more than one axis, are
rejected with a `ValueError`, unless the array has the shape `(2, 1, …, 1)`. -/
theorem C168_axes_rejected (f : ℝ → ℝ) (v x : ArrN) :
    (2 ≤ x.shape.length → ¬ (∃ k, x.shape = 2 :: List.replicate k 1) → darbouxAny (.fn f) x = .error .valueError) ∧
    (2 ≤ v.shape.length → ¬ (∃ k, v.shape = 2 :: List.replicate k 1) → x.shape ≠ [] → darbouxAny (.vals v) x = .error .valueError) ∧
    (x.shape = [] → darbouxAny (.fn f) x = .error .indexError ∧ darbouxAny (.vals v) x = .error .indexError) ∧
    (v.shape = [] → x.shape ≠ [] → darbouxAny (.vals v) x = .error .typeError) := by
  have hn : ∀ a : ArrN, 2 ≤ a.shape.length → ¬ (∃ k, a.shape = 2 :: List.replicate k 1) → a.neighbours = .error .valueError := by
    intro a h1 h2
    obtain ⟨s, e⟩ := a
    simp only at h1 h2
    unfold ArrN.neighbours
    match s, h1, h2 with
    | 0 :: _ :: _, _, _ => rfl
    | 1 :: _ :: _, _, _ => rfl
    | (n + 3) :: _ :: _, _, _ => rfl
    | 2 :: d :: ds, _, h2 =>
      simp only
      rw [if_neg]
      intro h
      exact h2 ⟨(d :: ds).length, by rw [List.cons.injEq]; exact ⟨rfl, List.eq_replicate_iff.2 ⟨rfl, h⟩⟩⟩
  have hs : ∀ a : ArrN, a.shape ≠ [] → ∃ d, a.steps = .ok d := by
    intro a h
    obtain ⟨s, e⟩ := a
    match s, h with
    | [_], _ => exact ⟨_, rfl⟩
    | _ :: _ :: _, _ => exact ⟨_, rfl⟩
  refine ⟨fun h1 h2 => ?_, fun h1 h2 h3 => ?_, fun h => ?_, fun h h' => ?_⟩
  · obtain ⟨d, hd⟩ := hs x (by rintro h; rw [h] at h1; simp at h1)
    simp only [darbouxAny, hd, hn (x.map f) h1 h2, Bind.bind, Except.bind]
  · obtain ⟨d, hd⟩ := hs x h3
    simp only [darbouxAny, hd, hn v h1 h2, Bind.bind, Except.bind]
  · have : x.steps = .error .indexError := by unfold ArrN.steps; rw [h]
    simp only [darbouxAny, this, Bind.bind, Except.bind, and_self]
  · obtain ⟨d, hd⟩ := hs x h'
    have : v.neighbours = .error .typeError := by unfold ArrN.neighbours; rw [h]
    simp only [darbouxAny, hd, this, Bind.bind, Except.bind]

/-- C168, arrays with any number of axes: with values on one axis, a partition with more axes is accepted exactly if its LAST axis has the length
1 or the number of intervals between the values, or if there is one interval. -/
theorem C168_axes_accepted_iff (y : List ℝ) (n d : ℕ) (ds : List ℕ) (e : List ℝ) :
    (∃ r, darbouxAny (.vals ⟨[y.length], y⟩) ⟨n :: d :: ds, e⟩ = .ok r) ↔
      y ≠ [] ∧ (y.length = (d :: ds).getLast (by simp) + 1 ∨ y.length = 2 ∨ (d :: ds).getLast (by simp) = 1) := by
  cases y with
  | nil => simp [darbouxAny, ArrN.neighbours, ArrN.steps, Bind.bind, Except.bind]
  | cons y ys =>
    generalize hc : (d :: ds).getLast (by simp) = c
    simp only [darbouxAny, ArrN.neighbours_vec, ArrN.steps, Bind.bind, Except.bind, hc, List.length_cons,
      Arr2.sumProduct, zipWith_dropLast, pairsWith_length, ne_eq, reduceCtorEq, not_false_eq_true, true_and, Nat.add_right_cancel_iff]
    by_cases h1 : ys.length = c
    · simp [h1]
    · by_cases h2 : ys.length = 1
      · simp only [if_neg h1, if_pos h2]
        simp [h2]
      · by_cases h3 : c = 1
        · simp only [if_neg h1, if_neg h2, if_pos h3]
          simp [h3]
        · simp only [if_neg h1, if_neg h2, if_neg h3]
          simp [h1, h2, h3]

/-- C168, arrays with any number of axes: for a partition with the shape `(n, 1, …, 1)` the "lower sum" is the length of the range times the sum
of all minima, as for a column. -/
theorem C168_axes_refuted (y x : ℝ) (ys xs : List ℝ) (k : ℕ) :
    darbouxAny (.vals ⟨[ys.length + 1], y :: ys⟩) ⟨(xs.length + 1) :: List.replicate (k + 1) 1, x :: xs⟩ =
      darbouxNd (.vals (.vec (y :: ys))) (Arr2.column (x :: xs)) := by
  have h1 : (⟨(xs.length + 1) :: List.replicate (k + 1) 1, x :: xs⟩ : ArrN).steps = .ok (Arr2.column (x :: xs)).steps := by
    rw [steps_column]
    have hl : (1 :: List.replicate k 1).getLast (by simp) = 1 := by
      have := List.getLast_mem (l := 1 :: List.replicate k 1) (by simp)
      simp only [List.mem_cons, List.mem_replicate] at this
      rcases this with h | h
      · exact h
      · exact h.2
    simp only [ArrN.steps, List.replicate_succ, diffs, hl]
    simp
  simp only [darbouxAny, h1, ArrN.neighbours_vec, darbouxNd, Arr2.neighbours, Bind.bind, Except.bind]

/-- The shape `(3, 1, 2)` is rejected; values on three points and a partition with the shape `(4, 5, 1)` are accepted. -/
example : 2 ≤ ([3, 1, 2] : List ℕ).length ∧ (¬ ∃ k, ([3, 1, 2] : List ℕ) = 2 :: List.replicate k 1) ∧
    ∀ e, ∃ r, darbouxAny (.vals ⟨[3], [1, 1, 1]⟩) ⟨[4, 5, 1], e⟩ = .ok r :=
  ⟨by simp, by simp, fun e => (C168_axes_accepted_iff [1, 1, 1] 4 5 [1] e).2 (by simp)⟩

end Ries
