import Verif.Lemmas.Darboux

/-! # C61–C66: Darboux sums -/

namespace Ries

/-! ## C61 -/

/-- C61: on a nondecreasing partition with `f` monotone on every interval, `darboux` returns a lower
bound of the integral and a nonnegative gap that makes it an upper bound. -/
theorem C61_brackets_integral (f : ℝ → ℝ) (x : List ℝ) (hne : x ≠ [])
    (hx : x.IsChain (· ≤ ·))
    (hm : x.IsChain (fun a b => MonotoneOn f (Set.Icc a b) ∨ AntitoneOn f (Set.Icc a b))) :
    ∃ L D, darboux (vectorised f) x = .ok (L, D) ∧ 0 ≤ D ∧
      L ≤ ∫ t in x.head hne..x.getLast hne, f t ∧ (∫ t in x.head hne..x.getLast hne, f t) ≤ L + D := by
  cases x with
  | nil => exact absurd rfl hne
  | cons x xs =>
    obtain ⟨_, h1, h2⟩ := dsum_integral f x xs hx hm
    refine ⟨_, _, darboux_fun f x xs, abs_nonneg _, h1, ?_⟩
    have := le_abs_self (dsum max x xs (f x) (xs.map f) - dsum min x xs (f x) (xs.map f))
    simp only [List.head_cons]
    linarith

/-- C61 hypotheses hold for `f = |·|` (not monotone) on the partition `-2, 0, 1`. -/
example : ([-2, 0, 1] : List ℝ).IsChain (· ≤ ·) ∧
    ([-2, 0, 1] : List ℝ).IsChain (fun a b => MonotoneOn (fun t : ℝ => |t|) (Set.Icc a b) ∨
      AntitoneOn (fun t : ℝ => |t|) (Set.Icc a b)) := by
  constructor
  · norm_num [List.isChain_cons_cons]
  · refine List.isChain_cons_cons.2 ⟨.inr ?_, List.isChain_cons_cons.2 ⟨.inl ?_, by simp⟩⟩
    · intro a ha b hb hab
      simp only [abs_of_nonpos ha.2, abs_of_nonpos hb.2]; linarith
    · intro a ha b hb hab
      simp only [abs_of_nonneg ha.1, abs_of_nonneg hb.1]; exact hab

/-! ## C62 -/

/-- `Σ |y_{i+1} - y_i| (x_{i+1} - x_i)` as a sum over indices -/
noncomputable def variationSum (x y : List ℝ) : ℝ :=
  ∑ i ∈ Finset.range (x.length - 1), |y.getD (i + 1) 0 - y.getD i 0| * (x.getD (i + 1) 0 - x.getD i 0)

theorem variationSum_nonneg (x y : List ℝ) (hx : x.IsChain (· ≤ ·)) : 0 ≤ variationSum x y := by
  refine Finset.sum_nonneg fun i hi => mul_nonneg (abs_nonneg _) ?_
  simp only [Finset.mem_range] at hi
  have hi' : i + 1 < x.length := by omega
  have := List.isChain_iff_getElem.1 hx i (by omega)
  simp only [List.getD_eq_getElem?_getD, List.getElem?_eq_getElem hi',
    List.getElem?_eq_getElem (by omega : i < x.length), Option.getD_some]
  linarith

/-- C62 (i): the gap is `Σ |f(x_{i+1}) - f(x_i)| (x_{i+1} - x_i)` on every nondecreasing grid (and its
absolute value on an arbitrary one), whatever the values. -/
theorem C62_gap_formula (x y : List ℝ) (hne : x ≠ []) (hl : x.length = y.length) :
    ∃ L D, darboux (.vals (.arr y)) x = .ok (L, D) ∧ D = |variationSum x y| ∧
      (x.IsChain (· ≤ ·) → D = variationSum x y) := by
  cases x with
  | nil => exact absurd rfl hne
  | cons x xs => cases y with
    | nil => simp at hl
    | cons y ys =>
      have h : xs.length = ys.length := by simpa using hl
      have e : dsum max x xs y ys - dsum min x xs y ys = variationSum (x :: xs) (y :: ys) := by
        rw [dsum_sub, dsum_eq_sum _ _ _ _ _ h]; rfl
      refine ⟨_, _, darboux_vals x y xs ys h, by rw [e], fun hx => ?_⟩
      rw [e, abs_of_nonneg (variationSum_nonneg _ _ hx)]

/-- C62 (ii): for a monotone function on an equidistant grid of `n + 1` points the gap is
`h |f(b) - f(a)|`. -/
theorem C62_equidistant (f : ℝ → ℝ) (a h : ℝ) (n : ℕ) (hh : 0 ≤ h)
    (hf : MonotoneOn f (Set.Icc a (a + n * h)) ∨ AntitoneOn f (Set.Icc a (a + n * h))) :
    ∃ L, darboux (vectorised f) (List.ofFn (fun i : Fin (n + 1) => a + i * h)) =
      .ok (L, h * |f (a + n * h) - f a|) := by
  have key : ∀ m : ℕ, m ≤ n →
      dsum (fun u v => |v - u|) a (List.ofFn (fun i : Fin m => a + (i + 1 : ℕ) * h)) (f a)
        ((List.ofFn (fun i : Fin m => a + (i + 1 : ℕ) * h)).map f) = h * |f (a + m * h) - f a| := by
    intro m hm
    rw [dsum_eq_sum _ _ _ _ _ (by simp)]
    have e : ∀ i, i < m → (a :: List.ofFn (fun i : Fin m => a + (i + 1 : ℕ) * h)).getD (i + 1) 0
        = a + (i + 1 : ℕ) * h := by
      intro i hi; simp [hi]
    have e0 : ∀ i, i < m → (a :: List.ofFn (fun i : Fin m => a + (i + 1 : ℕ) * h)).getD i 0
        = a + i * h := by
      intro i hi
      cases i with
      | zero => simp
      | succ i => rw [e i (by omega)]
    have f1 : ∀ i, i < m → (f a :: (List.ofFn (fun i : Fin m => a + (i + 1 : ℕ) * h)).map f).getD (i + 1) 0
        = f (a + (i + 1 : ℕ) * h) := by
      intro i hi; simp [hi]
    have f0 : ∀ i, i < m → (f a :: (List.ofFn (fun i : Fin m => a + (i + 1 : ℕ) * h)).map f).getD i 0
        = f (a + i * h) := by
      intro i hi
      cases i with
      | zero => simp
      | succ i => rw [f1 i (by omega)]
    rw [Finset.sum_congr rfl (g := fun i => |f (a + (i + 1 : ℕ) * h) - f (a + i * h)| * h) (by
      intro i hi
      simp only [List.length_ofFn, Finset.mem_range] at hi
      rw [e i hi, e0 i hi, f1 i hi, f0 i hi]; push_cast; ring)]
    simp only [List.length_ofFn]
    rw [← Finset.sum_mul]
    have mem : ∀ i : ℕ, i ≤ n → a + i * h ∈ Set.Icc a (a + n * h) := by
      intro i hi
      have : (i : ℝ) ≤ n := by exact_mod_cast hi
      exact ⟨by have := mul_nonneg (Nat.cast_nonneg (α := ℝ) i) hh; linarith,
        by have := mul_le_mul_of_nonneg_right this hh; linarith⟩
    have step : ∀ i : ℕ, a + i * h ≤ a + (i + 1 : ℕ) * h := by intro i; push_cast; nlinarith
    have tel := Finset.sum_range_sub (fun i : ℕ => f (a + i * h)) m
    simp only [Nat.cast_zero, zero_mul, add_zero] at tel
    have m0 : a ≤ a + m * h := by have := mul_nonneg (Nat.cast_nonneg (α := ℝ) m) hh; linarith
    have ha := mem 0 (by omega)
    simp only [Nat.cast_zero, zero_mul, add_zero] at ha
    rcases hf with hf | hf
    · rw [Finset.sum_congr rfl (g := fun i => f (a + (i + 1 : ℕ) * h) - f (a + i * h)), tel,
        abs_of_nonneg (sub_nonneg.2 (hf ha (mem m hm) m0))]
      · ring
      · intro i hi
        simp only [Finset.mem_range] at hi
        exact abs_of_nonneg (sub_nonneg.2 (hf (mem i (by omega)) (mem (i + 1) (by omega)) (step i)))
    · rw [Finset.sum_congr rfl (g := fun i => -(f (a + (i + 1 : ℕ) * h) - f (a + i * h))),
        Finset.sum_neg_distrib, tel,
        abs_of_nonpos (sub_nonpos.2 (hf ha (mem m hm) m0))]
      · ring
      · intro i hi
        simp only [Finset.mem_range] at hi
        exact abs_of_nonpos (sub_nonpos.2 (hf (mem i (by omega)) (mem (i + 1) (by omega)) (step i)))
  have hlist : List.ofFn (fun i : Fin (n + 1) => a + i * h) =
      a :: List.ofFn (fun i : Fin n => a + (i + 1 : ℕ) * h) := by
    simp [List.ofFn_succ]
  rw [hlist, darboux_fun, dsum_sub, key n le_rfl]
  exact ⟨_, by rw [abs_of_nonneg (mul_nonneg hh (abs_nonneg _))]⟩

/-- C62 (iii): a constant function gives the exact integral and gap 0, on any grid. -/
theorem C62_constant (c : ℝ) (x : List ℝ) (hne : x ≠ []) :
    darboux (vectorised (fun _ => c)) x = .ok (c * (x.getLast hne - x.head hne), 0) := by
  cases x with
  | nil => exact absurd rfl hne
  | cons x xs =>
    have e : ∀ g : ℝ → ℝ → ℝ, g c c = c → ∀ x (xs : List ℝ),
        dsum g x xs c (xs.map fun _ => c) = c * ((x :: xs).getLast (by simp) - x) := by
      intro g hg x xs
      induction xs generalizing x with
      | nil => simp [dsum]
      | cons x' xs ih => simp only [List.map_cons, dsum, hg, ih, List.getLast_cons_cons]; ring
    rw [darboux_fun, e min (min_self c), e max (max_self c)]
    simp

/-! ## C63 -/

/-- C63: passing to a finer nondecreasing partition with the same end points, where `f` is monotone
on every interval of the coarser one, never decreases the lower sum and never increases the upper
sum (lower sum plus gap). -/
theorem C63_refinement (f : ℝ → ℝ) (x y : List ℝ) (hnx : x ≠ []) (hny : y ≠ [])
    (hsub : x.Sublist y) (hy : y.IsChain (· ≤ ·)) (hhead : x.head hnx = y.head hny)
    (hlast : x.getLast hnx = y.getLast hny)
    (hm : x.IsChain (fun a b => MonotoneOn f (Set.Icc a b) ∨ AntitoneOn f (Set.Icc a b))) :
    ∃ L D L' D', darboux (vectorised f) x = .ok (L, D) ∧ darboux (vectorised f) y = .ok (L', D') ∧
      L ≤ L' ∧ L' + D' ≤ L + D := by
  cases x with
  | nil => exact absurd rfl hnx
  | cons x xs => cases y with
    | nil => exact absurd rfl hny
    | cons y ys =>
      simp only [List.head_cons] at hhead
      subst hhead
      have hx : (x :: xs).IsChain (· ≤ ·) := by
        have := List.isChain_iff_pairwise.1 hy
        exact List.isChain_iff_pairwise.2 (this.sublist hsub)
      have hsub' : xs.Sublist ys := by simpa using hsub
      obtain ⟨h1, h2⟩ := refine_aux f x xs ys hsub' hy hlast hm
      refine ⟨_, _, _, _, darboux_fun f x xs, darboux_fun f x ys, h1, ?_⟩
      rw [abs_of_nonneg (sub_nonneg.2 (dsum_le (fun a b => min_le_max) x (f x) xs _ hx)),
        abs_of_nonneg (sub_nonneg.2 (dsum_le (fun a b => min_le_max) x (f x) ys _ hy))]
      linarith

example : ([0, 1] : List ℝ).Sublist [0, 1/2, 1] ∧ ([0, 1/2, 1] : List ℝ).IsChain (· ≤ ·) ∧
    ([0, 1] : List ℝ).IsChain (fun a b => MonotoneOn (fun t : ℝ => t) (Set.Icc a b) ∨
      AntitoneOn (fun t : ℝ => t) (Set.Icc a b)) := by
  refine ⟨by simp, by norm_num [List.isChain_cons_cons], ?_⟩
  refine List.isChain_cons_cons.2 ⟨.inl fun a _ b _ h => h, by simp⟩

/-! ## C64 -/

/-- C64: `darboux(f, x) = darboux(f(x), x)`; reversing the grid and values flips the sign of the lower
sum and keeps the gap; shifting the grid changes nothing, scaling the grid by `c` scales the lower sum by `c` and the
gap by `|c|`; scaling the values by `c ≥ 0` scales both; negating the values turns
the lower sum into minus the upper sum (on a nondecreasing grid); shifting the values by `c` adds `c` times the length of the
range to the lower sum. -/
theorem C64_function_vs_values (x y : List ℝ) (f : ℝ → ℝ) (hne : x ≠ []) (hl : x.length = y.length) :
    darboux (vectorised f) x = darboux (.vals (.arr (x.map f))) x ∧
    ∃ L D, darboux (.vals (.arr y)) x = .ok (L, D) ∧
      darboux (.vals (.arr y.reverse)) x.reverse = .ok (-L, D) ∧
      (∀ c, darboux (.vals (.arr y)) (x.map (· + c)) = .ok (L, D)) ∧
      (∀ c, darboux (.vals (.arr y)) (x.map (c * ·)) = .ok (c * L, |c| * D)) ∧
      (∀ c, 0 ≤ c → darboux (.vals (.arr (y.map (c * ·)))) x = .ok (c * L, c * D)) ∧
      (x.IsChain (· ≤ ·) → darboux (.vals (.arr (y.map (- ·)))) x = .ok (-(L + D), D)) ∧
      (∀ c, darboux (.vals (.arr (y.map (· + c)))) x = .ok (L + c * (x.getLast hne - x.head hne), D)) := by
  constructor
  · cases x with
    | nil => exact absurd rfl hne
    | cons x xs => rw [darboux_fun, List.map_cons, darboux_vals _ _ _ _ (by simp)]
  cases x with
  | nil => exact absurd rfl hne
  | cons x xs => cases y with
    | nil => simp at hl
    | cons y ys =>
      have h : xs.length = ys.length := by simpa using hl
      refine ⟨_, _, darboux_vals x y xs ys h, ?_, ?_, ?_, ?_, ?_, ?_⟩
      · rw [darboux_valsL _ _ (by simp) (by simpa using hl), dsumL_reverse min min_comm _ _ hl,
          dsumL_reverse max max_comm _ _ hl]
        simp only [dsumL]
        rw [← abs_neg]
        congr 3; ring
      · intro c
        have e : ∀ g : ℝ → ℝ → ℝ, dsum g (x + c) (xs.map (· + c)) y ys = dsum g x xs y ys := by
          intro g
          have := dsum_map g g (· + c) id 1 (by intros; simp) x y xs ys
          simpa using this
        rw [List.map_cons, darboux_vals _ _ _ _ (by simp [h]), e, e]
      · intro c
        have e : ∀ g : ℝ → ℝ → ℝ, dsum g (c * x) (xs.map (c * ·)) y ys = c * dsum g x xs y ys := by
          intro g
          have := dsum_map g g (c * ·) id c (by intros; simp; ring) x y xs ys
          simpa using this
        rw [List.map_cons, darboux_vals _ _ _ _ (by simp [h]), e, e, ← mul_sub, abs_mul]
      · intro c hc
        rw [List.map_cons, darboux_vals _ _ _ _ (by simp [h])]
        have e1 := dsum_map min min id (c * ·) c (by
          intro a b u v; simp only [id, ← mul_min_of_nonneg _ _ hc]; ring) x y xs ys
        have e2 := dsum_map max max id (c * ·) c (by
          intro a b u v; simp only [id, ← mul_max_of_nonneg _ _ hc]; ring) x y xs ys
        simp only [List.map_id, id] at e1 e2
        rw [e1, e2, ← mul_sub, abs_mul, abs_of_nonneg hc]
      · intro hx
        rw [List.map_cons, darboux_vals _ _ _ _ (by simp [h])]
        have e1 := dsum_map max min id (- ·) (-1) (by
          intro a b u v; simp only [id, min_neg_neg]; ring) x y xs ys
        have e2 := dsum_map min max id (- ·) (-1) (by
          intro a b u v; simp only [id, max_neg_neg]; ring) x y xs ys
        simp only [List.map_id, id] at e1 e2
        rw [e1, e2, abs_of_nonneg (sub_nonneg.2 (dsum_le (fun a b => min_le_max) x y xs ys hx))]
        have : (-1 : ℝ) * dsum min x xs y ys - -1 * dsum max x xs y ys = dsum max x xs y ys - dsum min x xs y ys := by ring
        rw [this, abs_of_nonneg (sub_nonneg.2 (dsum_le (fun a b => min_le_max) x y xs ys hx))]
        congr 2; ring
      · intro c
        rw [List.map_cons, darboux_vals _ _ _ _ (by simp [h]),
          dsum_shift min c (fun a b => by rw [min_add_add_right]) x y xs ys h,
          dsum_shift max c (fun a b => by rw [max_add_add_right]) x y xs ys h]
        simp only [List.head_cons]
        congr 3; ring

example : darboux (.vals (.arr [1, 3])) [0, 2] = .ok (2, 4) := by
  rw [darboux_vals _ _ _ _ (by simp)]; norm_num [dsum]

/-! ## C65 -/

/-- C65, the part that holds: when lengths differ, `darboux` raises `ValueError` unless broadcasting
applies (one of the two arrays has exactly two entries, or the grid is empty and there are one or two
values); a scalar-valued callable raises `TypeError`.  Missing: see `C65_mismatch_refuted`. -/
theorem C65_mismatch_rejected_partial (x y : List ℝ) :
    (x.length ≠ y.length → x.length ≠ 2 → y.length ≠ 2 → x ≠ [] →
      darboux (.vals (.arr y)) x = .error .valueError) ∧
    (∀ c, darboux (.callable (fun _ => .sc c)) x = .error .typeError) := by
  refine ⟨fun h1 h2 h3 h4 => ?_, fun c => rfl⟩
  cases x with
  | nil => exact absurd rfl h4
  | cons x xs => cases y with
    | nil => rfl
    | cons y ys =>
      have key : ∀ g : ℝ → ℝ → ℝ, bmul (pairsWith g y ys) (diffsFrom x xs) = .error .valueError := by
        intro g
        have l1 := pairsWith_length g y ys
        have l2 := diffsFrom_length x xs
        simp only [List.length_cons] at h1 h2 h3
        unfold bmul
        rw [if_neg (by omega)]
        match h5 : pairsWith g y ys, h6 : diffsFrom x xs with
        | [a], b => simp [h5] at l1; omega
        | [], [b] => simp [h6] at l2; omega
        | a :: a' :: as, [b] => simp [h6] at l2; omega
        | [], [] => rfl
        | [], b :: b' :: bs => rfl
        | a :: a' :: as, [] => rfl
        | a :: a' :: as, b :: b' :: bs => rfl
      simp only [darboux, zipWith_dropLast, diffs_cons, key, bind, Except.bind]

/-- C65 is false of the code for mismatched lengths 2 and 4: broadcasting accepts them silently. -/
theorem C65_mismatch_refuted :
    ¬ ∀ x y : List ℝ, x.length ≠ y.length → ∃ e, darboux (.vals (.arr y)) x = .error e := by
  intro h
  obtain ⟨e, he⟩ := h [0, 1, 2, 3] [5, 7] (by simp)
  simp [darboux, diffs, roll1, bmul, bind, Except.bind] at he

example : darboux (.vals (.arr [1, 2, 3])) [0, 1, 2, 3] = .error .valueError :=
  (C65_mismatch_rejected_partial [0, 1, 2, 3] [1, 2, 3]).1 (by simp) (by simp) (by simp) (by simp)

/-! ## C66 -/

/-- C66: with any monotone rounding that keeps 0, and any summation tree, the computed lower sum is at
most the computed upper sum on a nondecreasing grid. -/
theorem C66_rounded_order (rnd : ℝ → ℝ) (hm : Monotone rnd) (h0 : rnd 0 = 0) (t : SumTree)
    (x y : ℕ → ℝ) (hx : Monotone x) :
    lowerRounded rnd t x y ≤ upperRounded rnd t x y := by
  unfold lowerRounded upperRounded
  induction t with
  | leaf i =>
    simp only [SumTree.eval]
    apply hm
    apply mul_le_mul_of_nonneg_right min_le_max
    rw [← h0]
    exact hm (sub_nonneg.2 (hx (Nat.le_succ i)))
  | node l r ihl ihr =>
    simp only [SumTree.eval]
    exact hm (add_le_add ihl ihr)

/-- C66 hypotheses: rounding to integers towards zero from below, `⌊x⌋`, is monotone, keeps 0 and is
not the identity. -/
example : Monotone (fun x : ℝ => (⌊x⌋ : ℝ)) ∧ ((⌊(0:ℝ)⌋ : ℤ) : ℝ) = 0 ∧ ((⌊(1/2:ℝ)⌋ : ℤ) : ℝ) ≠ 1/2 := by
  refine ⟨fun a b h => by
    show ((⌊a⌋ : ℤ) : ℝ) ≤ ⌊b⌋
    exact_mod_cast Int.floor_le_floor h, by simp, ?_⟩
  have : ⌊(1/2:ℝ)⌋ = 0 := by norm_num [Int.floor_eq_iff]
  rw [this]; norm_num

end Ries
