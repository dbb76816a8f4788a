import Verif.Lemmas.Darboux

/-! # Property C128: comparison with the true Darboux sums -/

namespace Ries

/-- The sum over the intervals of the partition of a number attached to the interval times its length. -/
noncomputable def partitionSum (m : ℝ → ℝ → ℝ) : List ℝ → ℝ
  | a :: b :: xs => m a b * (b - a) + partitionSum m (b :: xs)
  | _ => 0

/-- The lower Darboux sum: infimum of the function over every interval. -/
noncomputable def trueLower (f : ℝ → ℝ) (x : List ℝ) : ℝ := partitionSum (fun a b => sInf (f '' Set.Icc a b)) x

/-- The upper Darboux sum: supremum of the function over every interval. -/
noncomputable def trueUpper (f : ℝ → ℝ) (x : List ℝ) : ℝ := partitionSum (fun a b => sSup (f '' Set.Icc a b)) x

theorem partitionSum_dsum (g : ℝ → ℝ → ℝ) (f : ℝ → ℝ) (x : ℝ) (xs : List ℝ) :
    dsum g x xs (f x) (xs.map f) = partitionSum (fun a b => g (f a) (f b)) (x :: xs) := by
  induction xs generalizing x with
  | nil => simp [dsum, partitionSum]
  | cons y ys ih => simp only [List.map_cons, dsum, partitionSum, ih]

theorem partitionSum_congr {m m' : ℝ → ℝ → ℝ} (x : List ℝ) (h : x.IsChain (fun a b => m a b = m' a b)) :
    partitionSum m x = partitionSum m' x := by
  induction x with
  | nil => rfl
  | cons a x ih =>
    cases x with
    | nil => rfl
    | cons b x =>
      rw [List.isChain_cons_cons] at h
      simp only [partitionSum, h.1, ih h.2]

theorem partitionSum_le {m m' : ℝ → ℝ → ℝ} (x : List ℝ) (hx : x.IsChain (· ≤ ·)) (h : ∀ a b, a ≤ b → m a b ≤ m' a b) :
    partitionSum m x ≤ partitionSum m' x := by
  induction x with
  | nil => rfl
  | cons a x ih =>
    cases x with
    | nil => rfl
    | cons b x =>
      rw [List.isChain_cons_cons] at hx
      simp only [partitionSum]
      exact add_le_add (mul_le_mul_of_nonneg_right (h a b hx.1) (by linarith [hx.1])) (ih hx.2)

theorem partitionSum_eq_iff {m m' : ℝ → ℝ → ℝ} (x : List ℝ) (hx : x.IsChain (· ≤ ·)) (h : ∀ a b, a ≤ b → m a b ≤ m' a b) :
    partitionSum m x = partitionSum m' x ↔ x.IsChain (fun a b => a < b → m a b = m' a b) := by
  induction x with
  | nil => simp [partitionSum]
  | cons a x ih =>
    cases x with
    | nil => simp [partitionSum]
    | cons b x =>
      rw [List.isChain_cons_cons] at hx ⊢
      simp only [partitionSum]
      have h1 := mul_le_mul_of_nonneg_right (h a b hx.1) (by linarith [hx.1] : 0 ≤ b - a)
      have h2 := partitionSum_le (b :: x) hx.2 h
      rw [← ih hx.2]
      constructor
      · intro e
        refine ⟨fun hab => ?_, by linarith⟩
        have e1 : m a b * (b - a) = m' a b * (b - a) := by linarith
        exact mul_right_cancel₀ (by linarith : b - a ≠ 0) e1
      · rintro ⟨e1, e2⟩
        rcases hx.1.eq_or_lt with rfl | hab
        · simp [e2]
        · rw [e1 hab, e2]

/-- infimum and supremum of a bounded function over an interval, and its values at the ends -/
theorem ends_bounds {f : ℝ → ℝ} {a b : ℝ} (hab : a ≤ b) (hl : BddBelow (f '' Set.Icc a b)) (hu : BddAbove (f '' Set.Icc a b)) :
    sInf (f '' Set.Icc a b) ≤ min (f a) (f b) ∧ max (f a) (f b) ≤ sSup (f '' Set.Icc a b) := by
  have ma : f a ∈ f '' Set.Icc a b := ⟨a, ⟨le_rfl, hab⟩, rfl⟩
  have mb : f b ∈ f '' Set.Icc a b := ⟨b, ⟨hab, le_rfl⟩, rfl⟩
  exact ⟨le_min (csInf_le hl ma) (csInf_le hl mb), max_le (le_csSup hu ma) (le_csSup hu mb)⟩

theorem ends_eq_iff {f : ℝ → ℝ} {a b : ℝ} (hab : a ≤ b) (hl : BddBelow (f '' Set.Icc a b)) (hu : BddAbove (f '' Set.Icc a b)) :
    (sInf (f '' Set.Icc a b) = min (f a) (f b) ↔ ∀ t ∈ Set.Icc a b, min (f a) (f b) ≤ f t) ∧
    (max (f a) (f b) = sSup (f '' Set.Icc a b) ↔ ∀ t ∈ Set.Icc a b, f t ≤ max (f a) (f b)) := by
  have hne : (f '' Set.Icc a b).Nonempty := ⟨f a, a, ⟨le_rfl, hab⟩, rfl⟩
  obtain ⟨h1, h2⟩ := ends_bounds hab hl hu
  refine ⟨⟨fun e t ht => e ▸ csInf_le hl ⟨t, ht, rfl⟩, fun h => le_antisymm h1 (le_csInf hne ?_)⟩,
    ⟨fun e t ht => e ▸ le_csSup hu ⟨t, ht, rfl⟩, fun h => le_antisymm h2 (csSup_le hne ?_)⟩⟩
  · rintro _ ⟨t, ht, rfl⟩; exact h t ht
  · rintro _ ⟨t, ht, rfl⟩; exact h t ht

/-- C128: for every bounded function and nondecreasing partition, the lower sum of `darboux` is at least the lower Darboux sum and
the upper sum at most the upper Darboux sum. The lower (upper) sums agree if and only if on every interval of positive length the
function is nowhere below (above) the values at both ends. -/
theorem C128_bounded (f : ℝ → ℝ) (hl : ∀ a b, BddBelow (f '' Set.Icc a b)) (hu : ∀ a b, BddAbove (f '' Set.Icc a b))
    (x : List ℝ) (hne : x ≠ []) (hx : x.IsChain (· ≤ ·)) :
    ∃ L D, darboux (vectorised f) x = .ok (L, D) ∧ trueLower f x ≤ L ∧ L + D ≤ trueUpper f x ∧
      (L = trueLower f x ↔ x.IsChain fun a b => a < b → ∀ t ∈ Set.Icc a b, min (f a) (f b) ≤ f t) ∧
      (L + D = trueUpper f x ↔ x.IsChain fun a b => a < b → ∀ t ∈ Set.Icc a b, f t ≤ max (f a) (f b)) := by
  cases x with
  | nil => exact absurd rfl hne
  | cons x xs =>
    rw [darboux_fun, partitionSum_dsum, partitionSum_dsum]
    have hle := partitionSum_le (m := fun a b => min (f a) (f b)) (m' := fun a b => max (f a) (f b)) (x :: xs) hx
      (fun a b _ => min_le_max)
    rw [abs_of_nonneg (sub_nonneg.2 hle)]
    have c1 : ∀ a b, a ≤ b → (fun a b => sInf (f '' Set.Icc a b)) a b ≤ (fun a b => min (f a) (f b)) a b :=
      fun a b hab => (ends_bounds hab (hl a b) (hu a b)).1
    have c2 : ∀ a b, a ≤ b → (fun a b => max (f a) (f b)) a b ≤ (fun a b => sSup (f '' Set.Icc a b)) a b :=
      fun a b hab => (ends_bounds hab (hl a b) (hu a b)).2
    refine ⟨_, _, rfl, partitionSum_le _ hx c1, ?_, ?_, ?_⟩
    · rw [add_sub_cancel]; exact partitionSum_le _ hx c2
    · rw [eq_comm]
      refine (partitionSum_eq_iff _ hx c1).trans ?_
      constructor
      · exact List.IsChain.imp fun a b h hab => (ends_eq_iff hab.le (hl a b) (hu a b)).1.1 (h hab)
      · exact List.IsChain.imp fun a b h hab => (ends_eq_iff hab.le (hl a b) (hu a b)).1.2 (h hab)
    · rw [add_sub_cancel]
      refine (partitionSum_eq_iff _ hx c2).trans ?_
      constructor
      · exact List.IsChain.imp fun a b h hab => (ends_eq_iff hab.le (hl a b) (hu a b)).2.1 (h hab)
      · exact List.IsChain.imp fun a b h hab => (ends_eq_iff hab.le (hl a b) (hu a b)).2.2 (h hab)

/-- C128: as documented, if the function is monotone on every interval of the partition, `darboux` returns the lower Darboux sum
and the difference of the upper and the lower Darboux sum (no boundedness needed). -/
theorem C128_monotone (f : ℝ → ℝ) (x : List ℝ) (hne : x ≠ []) (hx : x.IsChain (· ≤ ·))
    (hm : x.IsChain (fun a b => MonotoneOn f (Set.Icc a b) ∨ AntitoneOn f (Set.Icc a b))) :
    darboux (vectorised f) x = .ok (trueLower f x, trueUpper f x - trueLower f x) := by
  cases x with
  | nil => exact absurd rfl hne
  | cons x xs =>
    have key : ∀ l : List ℝ, l.IsChain (· ≤ ·) → l.IsChain (MonoPiece f) →
        l.IsChain (fun a b => min (f a) (f b) = sInf (f '' Set.Icc a b)) ∧
        l.IsChain (fun a b => max (f a) (f b) = sSup (f '' Set.Icc a b)) := by
      intro l
      induction l with
      | nil => simp
      | cons a l ih =>
        cases l with
        | nil => simp
        | cons b l =>
          intro h1 h2
          rw [List.isChain_cons_cons] at h1 h2
          obtain ⟨i1, i2⟩ := ih h1.2 h2.2
          have hb : ∀ t ∈ Set.Icc a b, min (f a) (f b) ≤ f t ∧ f t ≤ max (f a) (f b) := fun t ht => h2.1.bounds ht
          have hl : BddBelow (f '' Set.Icc a b) := ⟨_, by rintro _ ⟨t, ht, rfl⟩; exact (hb t ht).1⟩
          have hu : BddAbove (f '' Set.Icc a b) := ⟨_, by rintro _ ⟨t, ht, rfl⟩; exact (hb t ht).2⟩
          obtain ⟨e1, e2⟩ := ends_eq_iff h1.1 hl hu
          exact ⟨List.isChain_cons_cons.2 ⟨(e1.2 fun t ht => (hb t ht).1).symm, i1⟩,
            List.isChain_cons_cons.2 ⟨e2.2 fun t ht => (hb t ht).2, i2⟩⟩
    obtain ⟨k1, k2⟩ := key _ hx hm
    have hle := partitionSum_le (m := fun a b => min (f a) (f b)) (m' := fun a b => max (f a) (f b)) (x :: xs) hx
      (fun a b _ => min_le_max)
    rw [darboux_fun, partitionSum_dsum, partitionSum_dsum, abs_of_nonneg (sub_nonneg.2 hle)]
    unfold trueLower trueUpper
    rw [partitionSum_congr _ k1, partitionSum_congr _ k2]

/-- The hypotheses of `C128_bounded` hold for `f = |·|`; for it the sums on the partition `-1, 1` are not the Darboux sums. -/
example : (∀ a b, BddBelow ((fun t : ℝ => |t|) '' Set.Icc a b)) ∧ (∀ a b, BddAbove ((fun t : ℝ => |t|) '' Set.Icc a b)) ∧
    ¬ ([-1, 1] : List ℝ).IsChain fun a b => a < b → ∀ t ∈ Set.Icc a b, min |a| |b| ≤ |t| := by
  refine ⟨fun a b => ?_, fun a b => ?_, ?_⟩
  · exact ⟨0, by rintro _ ⟨t, -, rfl⟩; exact abs_nonneg t⟩
  · refine ⟨max |a| |b|, ?_⟩
    rintro _ ⟨t, ht, rfl⟩
    exact abs_le_max_abs_abs ht.1 ht.2
  · simp only [List.isChain_cons_cons, List.isChain_singleton, and_true]
    intro h
    have := h (by norm_num) 0 ⟨by norm_num, by norm_num⟩
    norm_num at this

end Ries
