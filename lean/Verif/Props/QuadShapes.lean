import Verif.Props.QuadPartition
import Verif.Spec.Rounded
import Mathlib.Analysis.SpecialFunctions.Integrals.Basic

/-! # Properties C130, C131: shapes of the partition, rounding errors of partitioned quadratures -/

namespace Ries

/-! ## C130 -/

/-- C130 is false of the code: a partition given as an array with one row, the documented shape `(1, n)`, has length 1, so that nothing is
integrated: for all functions and partitions the result is integral 0 with an estimated error 0. -/
theorem C130_refuted (nquad : NQuad) (f : List ℝ → ℝ) (x : List ℝ) (rest : List (ℝ × ℝ)) :
    quadPartitionAny nquad f (.matrix [x]) (.list rest) = .ok (0, 0) := by
  simp [quadPartitionAny, LimArg.orEmpty, bind, Except.bind]

/-- C130: the result is then wrong by the whole integral, in spite of an exact quadrature. -/
theorem C130_wrong_by_integral (nquad : NQuad) (f : List ℝ → ℝ) (x : List ℝ) (hne : x ≠ []) (rest : List (ℝ × ℝ))
    (hf : ContArgs (rest.length + 1) f) (hex : ∀ p ∈ pieces x, (nquad f (p :: rest)).1 = iterIntegral f (p :: rest))
    (h0 : iterIntegral f ((x.head hne, x.getLast hne) :: rest) ≠ 0) :
    quadPartitionAny nquad f (.matrix [x]) (.list rest) ≠ quadPartitionAny nquad f (.vector x) (.list rest) := by
  obtain ⟨D, hD⟩ := C67_exact_pieces nquad f x hne rest hf hex
  rw [C130_refuted]
  simp only [quadPartitionAny, hD, ne_eq, Except.ok.injEq, Prod.mk.injEq, not_and]
  exact fun h => absurd h.symm h0

example : iterIntegral (fun v => v.headD 0) [((0 : ℝ), 2)] ≠ 0 := by
  simp only [iterIntegral, List.headD_cons, integral_id]
  norm_num

/-- C130: other two-dimensional partitions. A column is treated like a one-dimensional array; two or more rows with several entries are
rejected. So the documented shape `(1, n)` is the only one with a wrong result. -/
theorem C130_columns (nquad : NQuad) (f : List ℝ → ℝ) (lim : LimArg) :
    (∀ x, quadPartitionAny nquad f (.matrix (x.map fun a => [a])) lim = quadPartitionAny nquad f (.vector x) lim) ∧
    ∀ rows, 2 ≤ rows.length → (∃ r ∈ rows, 2 ≤ r.length) → quadPartitionAny nquad f (.matrix rows) lim = .error .valueError := by
  have hs : ∀ x : List ℝ, (x.map fun a => [a]).mapM single = some x := by
    intro x
    induction x with
    | nil => rfl
    | cons a x ih => simp [ih, single]
  have hv : ∀ e, lim.orEmpty = .error e → e = .valueError := by
    intro e h
    match lim, h with
    | .none, h => simp [LimArg.orEmpty] at h
    | .list _, h => simp [LimArg.orEmpty] at h
    | .ndarray [], h => simp [LimArg.orEmpty] at h
    | .ndarray (_ :: _), h => simpa [LimArg.orEmpty] using h.symm
  refine ⟨fun x => ?_, fun rows h ⟨r, hr, h2⟩ => ?_⟩
  · simp only [quadPartitionAny, quadPartition, hs, List.length_map]
    cases lim.orEmpty with
    | error e => rfl
    | ok rest =>
      simp only [Bind.bind, Except.bind]
      match x with
      | [] => simp [quadLoop]
      | [a] => simp [quadLoop]
      | a :: b :: x => simp
  · have hn : rows.mapM single = none := by
      clear h
      induction rows with
      | nil => simp at hr
      | cons q rows ih =>
        rw [List.mapM_cons]
        rcases List.mem_cons.1 hr with rfl | hr
        · match r, h2 with
          | _ :: _ :: _, _ => rfl
        · rw [ih ⟨r, hr, h2⟩ hr]
          cases single q <;> rfl
    simp only [quadPartitionAny, hn]
    cases h0 : lim.orEmpty with
    | error e => rw [hv e h0]; rfl
    | ok rest =>
      simp only [Bind.bind, Except.bind]
      rw [if_neg (by omega)]

/-- C130, the part that holds: a one-dimensional partition gives the integral (exact pieces), and the whole is the sum of two parts of the
partition that share a point. -/
theorem C130_partial (nquad : NQuad) (f : List ℝ → ℝ) (x y : List ℝ) (b : ℝ) (rest : List (ℝ × ℝ)) :
    ∃ I J D D', quadPartitionAny nquad f (.vector (x ++ [b])) (.list rest) = .ok (I, D) ∧
      quadPartitionAny nquad f (.vector (b :: y)) (.list rest) = .ok (J, D') ∧
      quadPartitionAny nquad f (.vector (x ++ b :: y)) (.list rest) = .ok (I + J, Real.sqrt (D ^ 2 + D' ^ 2)) := by
  have hp : pieces (x ++ b :: y) = pieces (x ++ [b]) ++ pieces (b :: y) := by
    induction x with
    | nil => simp [pieces]
    | cons a x ih => cases x with
      | nil => simp [pieces]
      | cons c x => simp only [List.cons_append, pieces] at ih ⊢; rw [ih]
  have hsq : ∀ l : List ℝ, Real.sqrt ((l.map (· ^ 2)).sum) ^ 2 = (l.map (· ^ 2)).sum := fun l => Real.sq_sqrt (sum_sq_nonneg l)
  have e : ∀ x, ((pieces x).map fun p => (nquad f (p :: rest)).2 ^ 2) = ((pieces x).map fun p => (nquad f (p :: rest)).2).map (· ^ 2) := by
    intro x; simp
  refine ⟨_, _, _, _, by simp only [quadPartitionAny, quadPartition, LimArg.orEmpty, bind, Except.bind, quadLoop_eq, zero_add]; rfl,
    by simp only [quadPartitionAny, quadPartition, LimArg.orEmpty, bind, Except.bind, quadLoop_eq, zero_add]; rfl, ?_⟩
  simp only [quadPartitionAny, quadPartition, LimArg.orEmpty, bind, Except.bind, quadLoop_eq, zero_add, hp, List.map_append, List.sum_append]
  rw [e, e, hsq, hsq]

/-! ## C131 -/

theorem rounding_bounds {u : ℝ} {fl : ℝ → ℝ} (hfl : Rounding u fl) {x : ℝ} (hx : 0 ≤ x) : (1 - u) * x ≤ fl x ∧ fl x ≤ (1 + u) * x := by
  have := _root_.abs_le.1 (hfl x)
  rw [abs_of_nonneg hx] at this
  constructor <;> linarith [this.1, this.2]

theorem quadLoopR_bounds {u : ℝ} (hu : 0 ≤ u) (hu1 : u ≤ 1) {fl : ℝ → ℝ} (hfl : Rounding u fl) (nquad : NQuad) (f : List ℝ → ℝ)
    (rest : List (ℝ × ℝ)) (x : List ℝ) (s v : ℝ) (hv : 0 ≤ v) :
    |(quadLoopR fl nquad f rest x (s, v)).1 - (s + ((pieces x).map fun p => (nquad f (p :: rest)).1).sum)| ≤
      ((1 + u) ^ (pieces x).length - 1) * (|s| + ((pieces x).map fun p => |(nquad f (p :: rest)).1|).sum) ∧
    (1 - u) ^ (pieces x).length * v + (1 - u) ^ ((pieces x).length + 1) * ((pieces x).map fun p => (nquad f (p :: rest)).2 ^ 2).sum ≤
      (quadLoopR fl nquad f rest x (s, v)).2 ∧
    (quadLoopR fl nquad f rest x (s, v)).2 ≤
      (1 + u) ^ (pieces x).length * v + (1 + u) ^ ((pieces x).length + 1) * ((pieces x).map fun p => (nquad f (p :: rest)).2 ^ 2).sum := by
  match x with
  | [] => simp [quadLoopR, pieces]
  | [a] => simp [quadLoopR, pieces]
  | a :: b :: xs =>
    set r := nquad f ((a, b) :: rest) with hr
    have hq0 : 0 ≤ r.2 * r.2 := mul_self_nonneg _
    obtain ⟨q1, q2⟩ := rounding_bounds hfl hq0
    have h1u : 0 ≤ 1 - u := by linarith
    have hq : 0 ≤ fl (r.2 * r.2) := (mul_nonneg h1u hq0).trans q1
    obtain ⟨w1, w2⟩ := rounding_bounds hfl (add_nonneg hv hq)
    have hw : 0 ≤ fl (v + fl (r.2 * r.2)) := (mul_nonneg h1u (add_nonneg hv hq)).trans w1
    obtain ⟨i1, i2, i3⟩ := quadLoopR_bounds hu hu1 hfl nquad f rest (b :: xs) (fl (s + r.1)) (fl (v + fl (r.2 * r.2))) hw
    have hs := hfl (s + r.1)
    have ha := abs_add_le s r.1
    simp only [quadLoopR, pieces, List.map_cons, List.sum_cons, List.length_cons, ← hr]
    set R := quadLoopR fl nquad f rest (b :: xs) (fl (s + r.1), fl (v + fl (r.2 * r.2)))
    set n := (pieces (b :: xs)).length
    set S := ((pieces (b :: xs)).map fun p => (nquad f (p :: rest)).1).sum
    set A := ((pieces (b :: xs)).map fun p => |(nquad f (p :: rest)).1|).sum with hA
    set U := ((pieces (b :: xs)).map fun p => (nquad f (p :: rest)).2 ^ 2).sum with hU
    have hA0 : 0 ≤ A := List.sum_nonneg (by simp only [List.mem_map, forall_exists_index, and_imp]; rintro _ p _ rfl; positivity)
    have hU0 : 0 ≤ U := List.sum_nonneg (by simp only [List.mem_map, forall_exists_index, and_imp]; rintro _ p _ rfl; positivity)
    have hE : 1 ≤ (1 + u) ^ n := one_le_pow₀ (by linarith)
    have hF : 0 ≤ (1 - u) ^ n := pow_nonneg h1u n
    have hsq : r.2 ^ 2 = r.2 * r.2 := sq _
    refine ⟨?_, ?_, ?_⟩
    · have t : |fl (s + r.1)| ≤ (1 + u) * (|s| + |r.1|) := by
        have := abs_sub_abs_le_abs_sub (fl (s + r.1)) (s + r.1)
        nlinarith [mul_le_mul_of_nonneg_left ha hu]
      have t2 : |fl (s + r.1) - (s + r.1)| ≤ u * (|s| + |r.1|) := hs.trans (mul_le_mul_of_nonneg_left ha hu)
      have t3 : |R.1 - (s + (r.1 + S))| ≤ |R.1 - (fl (s + r.1) + S)| + |fl (s + r.1) - (s + r.1)| := by
        refine le_trans (le_of_eq ?_) (abs_add_le _ _)
        congr 1; ring
      have t4 : ((1 + u) ^ n - 1) * (|fl (s + r.1)| + A) ≤ ((1 + u) ^ n - 1) * ((1 + u) * (|s| + |r.1|) + (1 + u) * A) :=
        mul_le_mul_of_nonneg_left (by nlinarith [mul_nonneg hu hA0]) (by linarith)
      have t5 : 0 ≤ u * A := mul_nonneg hu hA0
      have e : ((1 + u) ^ (n + 1) - 1) * (|s| + (|r.1| + A)) =
          ((1 + u) ^ n - 1) * ((1 + u) * (|s| + |r.1|) + (1 + u) * A) + u * (|s| + |r.1|) + u * A := by rw [pow_succ]; ring
      rw [e]; linarith
    · have t1 := mul_le_mul_of_nonneg_left w1 hF
      have t2 := mul_le_mul_of_nonneg_left q1 (mul_nonneg hF h1u)
      have t3 : 0 ≤ (1 - u) ^ (n + 1) * (u * U) := mul_nonneg (pow_nonneg h1u _) (mul_nonneg hu hU0)
      rw [hsq]
      have e : (1 - u) ^ (n + 1) * v + (1 - u) ^ (n + 1 + 1) * (r.2 * r.2 + U) =
          (1 - u) ^ n * ((1 - u) * v) + (1 - u) ^ n * (1 - u) * ((1 - u) * (r.2 * r.2)) + ((1 - u) ^ (n + 1) * U - (1 - u) ^ (n + 1) * (u * U)) := by
        simp only [pow_succ]; ring
      rw [e]; linarith
    · have hE0 : 0 ≤ (1 + u) ^ n := by linarith
      have t1 := mul_le_mul_of_nonneg_left w2 hE0
      have t2 := mul_le_mul_of_nonneg_left q2 (mul_nonneg hE0 (by linarith : (0 : ℝ) ≤ 1 + u))
      have t3 : 0 ≤ (1 + u) ^ (n + 1) * (u * U) := mul_nonneg (by positivity) (mul_nonneg hu hU0)
      rw [hsq]
      have e : (1 + u) ^ (n + 1) * v + (1 + u) ^ (n + 1 + 1) * (r.2 * r.2 + U) =
          (1 + u) ^ n * ((1 + u) * v) + (1 + u) ^ n * (1 + u) * ((1 + u) * (r.2 * r.2)) + ((1 + u) ^ (n + 1) * U + (1 + u) ^ (n + 1) * (u * U)) := by
        simp only [pow_succ]; ring
      rw [e]; linarith

/-- C131: with every operation rounded to a relative error of at most `u`, the integral differs from the exact sum of the pieces by at most
`(1 + u)ⁿ - 1` times the sum of their magnitudes. -/
theorem C131_integral {u : ℝ} (hu : 0 ≤ u) (hu1 : u ≤ 1) {fl : ℝ → ℝ} (hfl : Rounding u fl) (nquad : NQuad) (f : List ℝ → ℝ)
    (x0 : List ℝ) (rest : List (ℝ × ℝ)) :
    ∃ I D, quadPartitionR fl nquad f x0 (.list rest) = .ok (I, D) ∧
      |I - ((pieces x0).map fun p => (nquad f (p :: rest)).1).sum| ≤
        ((1 + u) ^ (x0.length - 1) - 1) * ((pieces x0).map fun p => |(nquad f (p :: rest)).1|).sum := by
  refine ⟨_, _, by simp only [quadPartitionR, LimArg.orEmpty, bind, Except.bind]; rfl, ?_⟩
  have h := (quadLoopR_bounds hu hu1 hfl nquad f rest x0 0 0 le_rfl).1
  rw [pieces_length] at h
  simpa using h

/-- C131: the rounded error estimate lies between `(1 - u)^(n + 1)` and `(1 + u)^(n + 1)` times the exact one, for `n` pieces (the square
root halves the exponents of the sum, and adds one rounding). -/
theorem C131_error {u : ℝ} (hu : 0 ≤ u) (hu1 : u ≤ 1) {fl : ℝ → ℝ} (hfl : Rounding u fl) (nquad : NQuad) (f : List ℝ → ℝ)
    (x0 : List ℝ) (rest : List (ℝ × ℝ)) :
    ∃ I D, quadPartitionR fl nquad f x0 (.list rest) = .ok (I, D) ∧
      (1 - u) * Real.sqrt ((1 - u) ^ (x0.length - 1 + 1)) * Real.sqrt (((pieces x0).map fun p => (nquad f (p :: rest)).2 ^ 2).sum) ≤ D ∧
      D ≤ (1 + u) * Real.sqrt ((1 + u) ^ (x0.length - 1 + 1)) * Real.sqrt (((pieces x0).map fun p => (nquad f (p :: rest)).2 ^ 2).sum) := by
  refine ⟨_, _, by simp only [quadPartitionR, LimArg.orEmpty, bind, Except.bind]; rfl, ?_⟩
  obtain ⟨-, h1, h2⟩ := quadLoopR_bounds hu hu1 hfl nquad f rest x0 0 0 le_rfl
  rw [pieces_length] at h1 h2
  simp only [mul_zero, zero_add] at h1 h2
  have h1u : 0 ≤ 1 - u := by linarith
  obtain ⟨b1, b2⟩ := rounding_bounds hfl (Real.sqrt_nonneg (quadLoopR fl nquad f rest x0 (0, 0)).2)
  have s1 := Real.sqrt_le_sqrt h1
  have s2 := Real.sqrt_le_sqrt h2
  rw [Real.sqrt_mul (pow_nonneg h1u _)] at s1
  rw [Real.sqrt_mul (by positivity)] at s2
  constructor
  · rw [mul_assoc]; exact (mul_le_mul_of_nonneg_left s1 h1u).trans b1
  · rw [mul_assoc]; exact b2.trans (mul_le_mul_of_nonneg_left s2 (by linarith))

/-- C131: without rounding errors the two computations agree. -/
theorem C131_exact (nquad : NQuad) (f : List ℝ → ℝ) (x0 : List ℝ) (lim : LimArg) :
    quadPartitionR id nquad f x0 lim = quadPartition nquad f x0 lim := by
  have : ∀ rest (x : List ℝ) (su : ℝ × ℝ), quadLoopR id nquad f rest x su = quadLoop nquad f rest x su := by
    intro rest x
    induction x with
    | nil => intro su; simp [quadLoopR, quadLoop]
    | cons a x ih => cases x with
      | nil => intro su; simp [quadLoopR, quadLoop]
      | cons b x => rintro ⟨s, v⟩; simp only [quadLoopR, quadLoop, id]; exact ih _
  simp only [quadPartitionR, quadPartition, this, id]

/-- C131: if every piece is accurate within its own estimate, the rounded integral is within `√n` times the rounded error estimate, blown up
by the rounding factor, and the rounding error of the sum. -/
theorem C131_true_error {u : ℝ} (hu : 0 ≤ u) (hu1 : u < 1) {fl : ℝ → ℝ} (hfl : Rounding u fl) (nquad : NQuad) (f : List ℝ → ℝ)
    (x0 : List ℝ) (hne : x0 ≠ []) (rest : List (ℝ × ℝ)) (hf : ContArgs (rest.length + 1) f)
    (hacc : PiecesAccurate nquad f x0 rest) :
    ∃ I D, quadPartitionR fl nquad f x0 (.list rest) = .ok (I, D) ∧
      |I - iterIntegral f ((x0.head hne, x0.getLast hne) :: rest)| ≤
        Real.sqrt (x0.length - 1 : ℕ) * (D / ((1 - u) * Real.sqrt ((1 - u) ^ (x0.length - 1 + 1)))) +
        ((1 + u) ^ (x0.length - 1) - 1) * ((pieces x0).map fun p => |(nquad f (p :: rest)).1|).sum := by
  obtain ⟨I, D, h, hI⟩ := C131_integral hu hu1.le hfl nquad f x0 rest
  obtain ⟨I', D', h', hD, -⟩ := C131_error hu hu1.le hfl nquad f x0 rest
  rw [h] at h'
  obtain ⟨rfl, rfl⟩ : I = I' ∧ D = D' := by simpa using h'
  refine ⟨I, D, h, ?_⟩
  have h1u : 0 < 1 - u := by linarith
  have hc : 0 < (1 - u) * Real.sqrt ((1 - u) ^ (x0.length - 1 + 1)) := mul_pos h1u (Real.sqrt_pos.2 (pow_pos h1u _))
  have t1 := abs_sum_sub_le (pieces x0) _ _ _ hacc
  have t2 := sqrt_le_of_sum ((pieces x0).map fun p => (nquad f (p :: rest)).2)
  rw [List.map_map, List.length_map, pieces_length] at t2
  have t3 : Real.sqrt (((pieces x0).map fun p => (nquad f (p :: rest)).2 ^ 2).sum) ≤
      D / ((1 - u) * Real.sqrt ((1 - u) ^ (x0.length - 1 + 1))) := by
    rw [le_div_iff₀ hc]; linarith
  have t4 := mul_le_mul_of_nonneg_left t3 (Real.sqrt_nonneg ((x0.length - 1 : ℕ) : ℝ))
  have t7 : iterIntegral f ((x0.head hne, x0.getLast hne) :: rest) = ((pieces x0).map fun p => iterIntegral f (p :: rest)).sum := by
    cases x0 with
    | nil => exact absurd rfl hne
    | cons a xs => rw [pieces_integral hf]; rfl
  rw [← t7] at t1
  have t5 := abs_sub_le I ((pieces x0).map fun p => (nquad f (p :: rest)).1).sum
    (iterIntegral f ((x0.head hne, x0.getLast hne) :: rest))
  have t6 : ((pieces x0).map ((fun x => x ^ 2) ∘ fun p => (nquad f (p :: rest)).2)).sum =
    ((pieces x0).map fun p => (nquad f (p :: rest)).2 ^ 2).sum := rfl
  rw [t6] at t2
  linarith

example : Rounding (1 / 10) (fun x => 1.1 * x) := by
  intro x
  rw [show (1.1 * x - x : ℝ) = 1 / 10 * x by ring, abs_mul]
  norm_num

example : PiecesAccurate (fun f l => (iterIntegral f l, 1)) (fun v => v.headD 0) [0, 1, 2] [] := by
  intro p _; simp

end Ries
