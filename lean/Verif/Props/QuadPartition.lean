import Verif.Model.QuadPartition
import Verif.Spec.Integral
import Mathlib.MeasureTheory.Integral.DominatedConvergence
import Mathlib.Analysis.MeanInequalities
import Mathlib.Algebra.Order.Chebyshev

/-! # C67–C70: partitioned integration -/

namespace Ries

/-! ## lemmas -/

theorem contArgs_inner {f : List ℝ → ℝ} {n : ℕ} (hf : ContArgs (n + 1) f) (a b : ℝ) :
    ContArgs n (fun ys => ∫ x in a..b, f (x :: ys)) := by
  unfold ContArgs at *
  have h : Continuous (Function.uncurry (fun (v : Fin n → ℝ) (x : ℝ) => f (x :: List.ofFn v))) := by
    have : (Function.uncurry (fun (v : Fin n → ℝ) (x : ℝ) => f (x :: List.ofFn v))) =
        (fun w : Fin (n + 1) → ℝ => f (List.ofFn w)) ∘ (fun p : (Fin n → ℝ) × ℝ => Fin.cons p.2 p.1) := by
      funext p; simp [Function.uncurry, List.ofFn_succ]
    rw [this]
    refine hf.comp ?_
    refine continuous_pi fun i => ?_
    refine Fin.cases ?_ (fun j => ?_) i
    · simpa using continuous_snd
    · simpa [Function.comp_def] using (continuous_apply j).comp continuous_fst
  exact intervalIntegral.continuous_parametric_intervalIntegral_of_continuous' h a b

theorem iterIntegral_congr {f g : List ℝ → ℝ} {r : List (ℝ × ℝ)}
    (h : ∀ v : Fin r.length → ℝ, f (List.ofFn v) = g (List.ofFn v)) :
    iterIntegral f r = iterIntegral g r := by
  induction r generalizing f g with
  | nil => simpa [iterIntegral] using h Fin.elim0
  | cons ab r ih =>
    obtain ⟨a, b⟩ := ab
    refine ih fun v => ?_
    refine intervalIntegral.integral_congr fun x _ => ?_
    simpa [List.ofFn_succ] using h (Fin.cons x v)

theorem iterIntegral_add {f g : List ℝ → ℝ} {r : List (ℝ × ℝ)} (hf : ContArgs r.length f)
    (hg : ContArgs r.length g) :
    iterIntegral (fun ys => f ys + g ys) r = iterIntegral f r + iterIntegral g r := by
  induction r generalizing f g with
  | nil => rfl
  | cons ab r ih =>
    obtain ⟨a, b⟩ := ab
    simp only [iterIntegral]
    have hf' := contArgs_inner (n := r.length) hf a b
    have hg' := contArgs_inner (n := r.length) hg a b
    rw [← ih hf' hg']
    refine iterIntegral_congr fun v => ?_
    have sec : ∀ {F : List ℝ → ℝ}, ContArgs (r.length + 1) F → Continuous fun x => F (x :: List.ofFn v) := by
      intro F hF
      have : (fun x => F (x :: List.ofFn v)) =
          (fun w : Fin (r.length + 1) → ℝ => F (List.ofFn w)) ∘ (fun x : ℝ => Fin.cons x v) := by
        funext x; simp [List.ofFn_succ]
      rw [this]
      refine Continuous.comp hF (continuous_pi fun i => ?_)
      refine Fin.cases ?_ (fun j => ?_) i
      · simpa using continuous_id'
      · simpa using continuous_const
    exact intervalIntegral.integral_add ((sec hf).intervalIntegrable _ _) ((sec hg).intervalIntegrable _ _)

theorem iterIntegral_zero (r : List (ℝ × ℝ)) : iterIntegral (fun _ => 0) r = 0 := by
  induction r with
  | nil => rfl
  | cons ab r ih => obtain ⟨a, b⟩ := ab; simp [iterIntegral, ih]

theorem iterIntegral_adjacent {f : List ℝ → ℝ} {r : List (ℝ × ℝ)} (hf : ContArgs (r.length + 1) f)
    (a b c : ℝ) : iterIntegral f ((a, b) :: r) + iterIntegral f ((b, c) :: r) = iterIntegral f ((a, c) :: r) := by
  simp only [iterIntegral]
  rw [← iterIntegral_add (contArgs_inner hf a b) (contArgs_inner hf b c)]
  refine iterIntegral_congr fun v => ?_
  have sec : Continuous fun x => f (x :: List.ofFn v) := by
    have : (fun x => f (x :: List.ofFn v)) =
        (fun w : Fin (r.length + 1) → ℝ => f (List.ofFn w)) ∘ (fun x : ℝ => Fin.cons x v) := by
      funext x; simp [List.ofFn_succ]
    rw [this]
    refine Continuous.comp hf (continuous_pi fun i => ?_)
    refine Fin.cases ?_ (fun j => ?_) i
    · simpa using continuous_id'
    · simpa using continuous_const
  exact intervalIntegral.integral_add_adjacent_intervals (sec.intervalIntegrable _ _) (sec.intervalIntegrable _ _)

/-- the loop computes the sum of piece integrals and the sum of squared piece errors -/
theorem quadLoop_eq (nquad : NQuad) (f : List ℝ → ℝ) (rest : List (ℝ × ℝ)) (x : List ℝ) (s u : ℝ) :
    quadLoop nquad f rest x (s, u) =
      (s + ((pieces x).map fun p => (nquad f (p :: rest)).1).sum,
       u + ((pieces x).map fun p => (nquad f (p :: rest)).2 ^ 2).sum) := by
  induction x generalizing s u with
  | nil => simp [quadLoop, pieces]
  | cons a xs ih => cases xs with
    | nil => simp [quadLoop, pieces]
    | cons b xs =>
      rw [quadLoop, ih]
      simp only [pieces, List.map_cons, List.sum_cons]
      ext <;> simp <;> ring

theorem pieces_integral {f : List ℝ → ℝ} {r : List (ℝ × ℝ)} (hf : ContArgs (r.length + 1) f)
    (a : ℝ) (xs : List ℝ) :
    ((pieces (a :: xs)).map fun p => iterIntegral f (p :: r)).sum =
      iterIntegral f ((a, (a :: xs).getLast (by simp)) :: r) := by
  induction xs generalizing a with
  | nil => simp [pieces, iterIntegral, iterIntegral_zero]
  | cons b xs ih =>
    simp only [pieces, List.map_cons, List.sum_cons, List.getLast_cons_cons]
    rw [ih b, iterIntegral_adjacent hf]

/-! ## C67 -/

/-- C67: if the underlying integrator is exact on every piece, the result is the iterated integral
over the whole range, for every partition (in any order) and any number of further coordinates. -/
theorem C67_exact_pieces (nquad : NQuad) (f : List ℝ → ℝ) (x0 : List ℝ) (hne : x0 ≠ [])
    (rest : List (ℝ × ℝ)) (hf : ContArgs (rest.length + 1) f)
    (hex : ∀ p ∈ pieces x0, (nquad f (p :: rest)).1 = iterIntegral f (p :: rest)) :
    ∃ D, quadPartition nquad f x0 (.list rest) =
      .ok (iterIntegral f ((x0.head hne, x0.getLast hne) :: rest), D) := by
  cases x0 with
  | nil => exact absurd rfl hne
  | cons a xs =>
    refine ⟨Real.sqrt ((pieces (a :: xs)).map fun p => (nquad f (p :: rest)).2 ^ 2).sum, ?_⟩
    simp only [quadPartition, LimArg.orEmpty, bind, Except.bind, quadLoop_eq]
    rw [List.map_congr_left hex, pieces_integral hf]
    simp only [zero_add, List.head_cons]

/-- C67 hypotheses: a continuous function of two arguments with an exact integrator. -/
example : ContArgs 2 (fun l => l.getD 0 0 * l.getD 1 0) := by
  unfold ContArgs
  have : (fun v : Fin 2 → ℝ => (List.ofFn v).getD 0 0 * (List.ofFn v).getD 1 0) = fun v => v 0 * v 1 := by
    funext v; simp [List.ofFn_succ]
  rw [this]; fun_prop

/-! ## C68 -/

theorem sqrt_sum_sq_le (l : List ℝ) : Real.sqrt ((l.map (· ^ 2)).sum) ≤ (l.map (|·|)).sum := by
  have h0 : ∀ l : List ℝ, 0 ≤ (l.map (|·|)).sum := fun l =>
    List.sum_nonneg (by intro x hx; obtain ⟨y, _, rfl⟩ := List.mem_map.1 hx; exact abs_nonneg y)
  rw [Real.sqrt_le_left (h0 l)]
  induction l with
  | nil => simp
  | cons a l ih =>
    simp only [List.map_cons, List.sum_cons]
    nlinarith [h0 l, abs_nonneg a, sq_abs a, mul_nonneg (abs_nonneg a) (h0 l)]

theorem sum_sq_nonneg (l : List ℝ) : 0 ≤ (l.map (· ^ 2)).sum :=
  List.sum_nonneg (by intro x hx; obtain ⟨y, _, rfl⟩ := List.mem_map.1 hx; exact sq_nonneg y)

theorem sq_le_sum_sq {l : List ℝ} {e : ℝ} (he : e ∈ l) : e ^ 2 ≤ (l.map (· ^ 2)).sum := by
  induction l with
  | nil => simp at he
  | cons a l ih =>
    simp only [List.map_cons, List.sum_cons]
    rcases List.mem_cons.1 he with rfl | h
    · linarith [sum_sq_nonneg l]
    · linarith [ih h, sq_nonneg a]

/-- C68: the returned error is the root of the sum of the squared piece errors; it is nonnegative, at
least every piece's absolute error, at most the sum of them, and zero only if all are zero. -/
theorem C68_error_formula (nquad : NQuad) (f : List ℝ → ℝ) (x0 : List ℝ) (rest : List (ℝ × ℝ)) :
    ∃ I D, quadPartition nquad f x0 (.list rest) = .ok (I, D) ∧
      D = Real.sqrt ((pieces x0).map fun p => (nquad f (p :: rest)).2 ^ 2).sum ∧ 0 ≤ D ∧
      (∀ p ∈ pieces x0, |(nquad f (p :: rest)).2| ≤ D) ∧
      D ≤ ((pieces x0).map fun p => |(nquad f (p :: rest)).2|).sum ∧
      (D = 0 ↔ ∀ p ∈ pieces x0, (nquad f (p :: rest)).2 = 0) := by
  have e : ((pieces x0).map fun p => (nquad f (p :: rest)).2 ^ 2) =
      ((pieces x0).map fun p => (nquad f (p :: rest)).2).map (· ^ 2) := by simp
  have e' : ((pieces x0).map fun p => |(nquad f (p :: rest)).2|) =
      ((pieces x0).map fun p => (nquad f (p :: rest)).2).map (|·|) := by simp
  refine ⟨_, _, by simp only [quadPartition, LimArg.orEmpty, bind, Except.bind, quadLoop_eq]; rfl, by simp, Real.sqrt_nonneg _, ?_, ?_, ?_⟩
  · intro p hp
    rw [zero_add]
    apply Real.abs_le_sqrt
    rw [e]
    exact sq_le_sum_sq (List.mem_map.2 ⟨p, hp, rfl⟩)
  · rw [zero_add, e, e']; exact sqrt_sum_sq_le _
  · rw [zero_add]
    constructor
    · intro h p hp
      rw [e, Real.sqrt_eq_zero (sum_sq_nonneg _)] at h
      have := sq_le_sum_sq (l := (pieces x0).map fun p => (nquad f (p :: rest)).2)
        (List.mem_map.2 ⟨p, hp, rfl⟩)
      rw [h] at this
      exact pow_eq_zero_iff (two_ne_zero) |>.1 (le_antisymm this (sq_nonneg _))
    · intro h
      rw [List.map_congr_left (g := fun _ => (0 : ℝ)) (fun p hp => by rw [h p hp]; norm_num)]
      simp

/-! ## C69 -/

/-- Every piece is accurate to its reported absolute error. -/
def PiecesAccurate (nquad : NQuad) (f : List ℝ → ℝ) (x0 : List ℝ) (rest : List (ℝ × ℝ)) : Prop :=
  ∀ p ∈ pieces x0, |(nquad f (p :: rest)).1 - iterIntegral f (p :: rest)| ≤ (nquad f (p :: rest)).2

/-- C69 is false of the code: errors are added in quadrature, which does not bound a sum of errors of
equal sign. -/
theorem C69_error_bound_refuted :
    ¬ ∀ (nquad : NQuad) (f : List ℝ → ℝ) (x0 : List ℝ) (hne : x0 ≠ []) (rest : List (ℝ × ℝ)),
      ContArgs (rest.length + 1) f → PiecesAccurate nquad f x0 rest →
      ∃ I D, quadPartition nquad f x0 (.list rest) = .ok (I, D) ∧
        |I - iterIntegral f ((x0.head hne, x0.getLast hne) :: rest)| ≤ D := by
  intro h
  obtain ⟨I, D, h1, h2⟩ := h (fun _ _ => (1, 1)) (fun _ => 0) [0, 1, 2] (by simp) []
    continuous_const (by intro p _; simp [iterIntegral])
  simp only [quadPartition, LimArg.orEmpty, bind, Except.bind, quadLoop_eq, pieces] at h1
  simp at h1
  obtain ⟨rfl, rfl⟩ := h1
  simp [iterIntegral] at h2
  have h3 : |(1 + 1 : ℝ)| = 2 := by norm_num
  rw [h3] at h2
  have h4 : (2:ℝ) ≤ Real.sqrt 2 := by
    refine h2.trans (le_of_eq ?_); norm_num
  rw [Real.le_sqrt (by norm_num) (by norm_num)] at h4
  norm_num at h4

theorem abs_sum_sub_le {α : Type*} (l : List α) (F G e : α → ℝ) (h : ∀ p ∈ l, |F p - G p| ≤ e p) :
    |(l.map F).sum - (l.map G).sum| ≤ (l.map e).sum := by
  induction l with
  | nil => simp
  | cons a l ih =>
    simp only [List.map_cons, List.sum_cons]
    have h1 := h a (by simp)
    have h2 := ih (fun p hp => h p (by simp [hp]))
    have : F a + (l.map F).sum - (G a + (l.map G).sum) = (F a - G a) + ((l.map F).sum - (l.map G).sum) := by ring
    rw [this]
    exact (abs_add_le _ _).trans (add_le_add h1 h2)

theorem sum_sq_le (l : List ℝ) : l.sum ^ 2 ≤ l.length * (l.map (· ^ 2)).sum := by
  induction l with
  | nil => simp
  | cons a l ih =>
    simp only [List.sum_cons, List.map_cons, List.length_cons]
    push_cast
    rcases Nat.eq_zero_or_pos l.length with h | h
    · have : l = [] := List.length_eq_zero_iff.1 h
      subst this; simp
    · have hn : (1:ℝ) ≤ l.length := by exact_mod_cast h
      set n : ℝ := (l.length : ℝ)
      set S := l.sum
      set Q := (l.map (· ^ 2)).sum
      have : 2 * a * S ≤ n * a ^ 2 + Q := by
        have h1 : 0 ≤ (n * a - S) ^ 2 := sq_nonneg _
        have h3 : n * (n * a ^ 2 + Q - 2 * a * S) ≥ 0 := by nlinarith
        by_contra hc
        push Not at hc
        nlinarith
      nlinarith

theorem sqrt_le_of_sum (l : List ℝ) : l.sum ≤ Real.sqrt l.length * Real.sqrt ((l.map (· ^ 2)).sum) := by
  rw [← Real.sqrt_mul (Nat.cast_nonneg _)]
  exact Real.le_sqrt_of_sq_le (sum_sq_le l)

theorem pieces_length (x : List ℝ) : (pieces x).length = x.length - 1 := by
  induction x with
  | nil => rfl
  | cons a xs ih => cases xs with
    | nil => rfl
    | cons b xs => simp [pieces, ih]

/-- C69, the part that holds: the total is accurate to the sum of the piece errors, and to `√(n-1)`
times the returned error for `n` grid points (so for a single piece the claim holds as stated).
Missing: the bound by the returned error itself, which is false. -/
theorem C69_error_bound_partial (nquad : NQuad) (f : List ℝ → ℝ) (x0 : List ℝ) (hne : x0 ≠ [])
    (rest : List (ℝ × ℝ)) (hf : ContArgs (rest.length + 1) f) (hacc : PiecesAccurate nquad f x0 rest) :
    ∃ I D, quadPartition nquad f x0 (.list rest) = .ok (I, D) ∧
      |I - iterIntegral f ((x0.head hne, x0.getLast hne) :: rest)| ≤
        ((pieces x0).map fun p => (nquad f (p :: rest)).2).sum ∧
      |I - iterIntegral f ((x0.head hne, x0.getLast hne) :: rest)| ≤
        Real.sqrt ((x0.length - 1 : ℕ) : ℝ) * D := by
  refine ⟨_, _, by simp only [quadPartition, LimArg.orEmpty, bind, Except.bind, quadLoop_eq]; rfl, ?_⟩
  have key : |((pieces x0).map fun p => (nquad f (p :: rest)).1).sum -
      iterIntegral f ((x0.head hne, x0.getLast hne) :: rest)| ≤
        ((pieces x0).map fun p => (nquad f (p :: rest)).2).sum := by
    have : iterIntegral f ((x0.head hne, x0.getLast hne) :: rest) =
        ((pieces x0).map fun p => iterIntegral f (p :: rest)).sum := by
      cases x0 with
      | nil => exact absurd rfl hne
      | cons a xs => rw [pieces_integral hf]; rfl
    rw [this]
    exact abs_sum_sub_le _ _ _ _ hacc
  rw [zero_add, zero_add]
  refine ⟨key, key.trans ?_⟩
  have := sqrt_le_of_sum ((pieces x0).map fun p => (nquad f (p :: rest)).2)
  simpa [pieces_length, Function.comp_def] using this

example : PiecesAccurate (fun f r => (iterIntegral f r, 1)) (fun _ => 3) [0, 1, 2] [] := by
  intro p _; simp

/-! ## C70 -/

/-- C70 is false of the code: a numpy array of limits with at least one row raises `ValueError`, while
the list with the same content is accepted. -/
theorem C70_ndarray_refuted :
    ¬ ∀ (nquad : NQuad) (f : List ℝ → ℝ) (x0 : List ℝ) (rest : List (ℝ × ℝ)),
      quadPartition nquad f x0 (.ndarray rest) = quadPartition nquad f x0 (.list rest) := by
  intro h
  have := h (fun _ _ => (0, 0)) (fun _ => 0) [] [(0, 1)]
  simp [quadPartition, LimArg.orEmpty, bind, Except.bind] at this

/-- C70, the part that holds: the default is the empty list, an empty array is accepted like an empty
list, every non-empty array is rejected with `ValueError`, and a list is passed on: a partition into one piece gives
the result of `nquad` over this piece and the listed ranges. -/
theorem C70_ndarray_partial (nquad : NQuad) (f : List ℝ → ℝ) (x0 : List ℝ) (rest : List (ℝ × ℝ)) :
    quadPartition nquad f x0 .none = quadPartition nquad f x0 (.list []) ∧
    quadPartition nquad f x0 (.ndarray []) = quadPartition nquad f x0 (.list []) ∧
    (rest ≠ [] → quadPartition nquad f x0 (.ndarray rest) = .error .valueError) ∧
    ∀ a b, quadPartition nquad f [a, b] (.list rest) =
      .ok ((nquad f ((a, b) :: rest)).1, |(nquad f ((a, b) :: rest)).2|) := by
  refine ⟨rfl, rfl, fun h => ?_, fun a b => ?_⟩
  · cases rest with
    | nil => exact absurd rfl h
    | cons => rfl
  · simp [quadPartition, LimArg.orEmpty, quadLoop, bind, Except.bind, Real.sqrt_mul_self_eq_abs]

end Ries
