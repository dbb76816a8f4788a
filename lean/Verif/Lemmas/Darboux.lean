import Verif.Model.Darboux
import Mathlib.Analysis.SpecialFunctions.Integrals.Basic

namespace Ries

/-- consecutive differences, structurally -/
def diffsFrom : ℝ → List ℝ → List ℝ
  | _, [] => []
  | a, b :: l => (b - a) :: diffsFrom b l

/-- structural form of the two rows -/
def pairsWith (g : ℝ → ℝ → ℝ) : ℝ → List ℝ → List ℝ
  | _, [] => []
  | a, b :: l => g a b :: pairsWith g b l

theorem zipWith_dropLast (g : ℝ → ℝ → ℝ) (a : ℝ) (l : List ℝ) :
    List.zipWith g ((a :: l).dropLast) ((a :: l).drop 1) = pairsWith g a l := by
  induction l generalizing a with
  | nil => rfl
  | cons b l ih => simpa [pairsWith] using ih b

theorem diffs_cons (a : ℝ) (l : List ℝ) : diffs (a :: l) = diffsFrom a l := by
  have : diffs (a :: l) = List.zipWith (· - ·) l (a :: l).dropLast := by
    cases h : (a :: l).getLast? with
    | none => simp at h
    | some x => simp [diffs, roll1, h]
  rw [this]
  induction l generalizing a with
  | nil => rfl
  | cons b l ih =>
    simp only [List.dropLast_cons_cons, List.zipWith_cons_cons, diffsFrom]
    rw [ih b]
    cases h : (b :: l).getLast? with
    | none => simp at h
    | some x => simp [diffs, roll1, h]

theorem pairsWith_length (g : ℝ → ℝ → ℝ) (a : ℝ) (l : List ℝ) : (pairsWith g a l).length = l.length := by
  induction l generalizing a with
  | nil => rfl
  | cons b l ih => simp [pairsWith, ih]

theorem diffsFrom_length (a : ℝ) (l : List ℝ) : (diffsFrom a l).length = l.length := by
  induction l generalizing a with
  | nil => rfl
  | cons b l ih => simp [diffsFrom, ih]

/-- sum of `g(y_i, y_{i+1}) (x_{i+1} - x_i)`, structurally -/
def dsum (g : ℝ → ℝ → ℝ) : ℝ → List ℝ → ℝ → List ℝ → ℝ
  | x, x' :: xs, y, y' :: ys => g y y' * (x' - x) + dsum g x' xs y' ys
  | _, _, _, _ => 0

theorem zipWith_sum (g : ℝ → ℝ → ℝ) (x y : ℝ) (xs ys : List ℝ) :
    (List.zipWith (· * ·) (pairsWith g y ys) (diffsFrom x xs)).sum = dsum g x xs y ys := by
  induction xs generalizing x y ys with
  | nil => cases ys <;> simp [diffsFrom, pairsWith, dsum]
  | cons x' xs ih => cases ys <;> simp [diffsFrom, pairsWith, dsum, ih]

/-- The matching case of `darboux`. -/
theorem darboux_vals (x y : ℝ) (xs ys : List ℝ) (h : xs.length = ys.length) :
    darboux (.vals (.arr (y :: ys))) (x :: xs) =
      .ok (dsum min x xs y ys, |dsum max x xs y ys - dsum min x xs y ys|) := by
  have e : ∀ g : ℝ → ℝ → ℝ, bmul (pairsWith g y ys) (diffsFrom x xs) =
      .ok (List.zipWith (· * ·) (pairsWith g y ys) (diffsFrom x xs)) := by
    intro g; simp [bmul, pairsWith_length, diffsFrom_length, h]
  simp only [darboux, zipWith_dropLast, diffs_cons, e, bind, Except.bind, zipWith_sum]

theorem darboux_fun (f : ℝ → ℝ) (x : ℝ) (xs : List ℝ) :
    darboux (vectorised f) (x :: xs) =
      .ok (dsum min x xs (f x) (xs.map f), |dsum max x xs (f x) (xs.map f) - dsum min x xs (f x) (xs.map f)|) := by
  rw [← darboux_vals x (f x) xs (xs.map f) (by simp)]
  simp [darboux, vectorised]

theorem dsum_sub (x y : ℝ) (xs ys : List ℝ) :
    dsum max x xs y ys - dsum min x xs y ys = dsum (fun a b => |b - a|) x xs y ys := by
  induction xs generalizing x y ys with
  | nil => cases ys <;> simp [dsum]
  | cons x' xs ih =>
    cases ys with
    | nil => simp [dsum]
    | cons y' ys =>
      simp only [dsum]
      have e : |y' - y| = max y y' - min y y' := by rw [max_sub_min_eq_abs]
      rw [← ih, e]; ring

theorem dsum_le {g h : ℝ → ℝ → ℝ} (hgh : ∀ a b, g a b ≤ h a b) (x y : ℝ) (xs ys : List ℝ)
    (hx : (x :: xs).IsChain (· ≤ ·)) : dsum g x xs y ys ≤ dsum h x xs y ys := by
  induction xs generalizing x y ys with
  | nil => cases ys <;> simp [dsum]
  | cons x' xs ih =>
    cases ys with
    | nil => simp [dsum]
    | cons y' ys =>
      simp only [dsum]
      have h1 := (List.isChain_cons_cons.1 hx).1
      have h2 := ih x' y' ys (List.isChain_cons_cons.1 hx).2
      have := mul_le_mul_of_nonneg_right (hgh y y') (sub_nonneg.2 h1)
      linarith

theorem last_ge {x : ℝ} {xs : List ℝ} (hx : (x :: xs).IsChain (· ≤ ·)) :
    x ≤ (x :: xs).getLast (by simp) := by
  induction xs generalizing x with
  | nil => simp
  | cons x' xs ih =>
    have h := List.isChain_cons_cons.1 hx
    have := ih h.2
    simp only [List.getLast_cons_cons]
    exact h.1.trans this

/-- piecewise monotone -/
abbrev MonoPiece (f : ℝ → ℝ) (a b : ℝ) : Prop := MonotoneOn f (Set.Icc a b) ∨ AntitoneOn f (Set.Icc a b)

theorem MonoPiece.bounds {f : ℝ → ℝ} {a b t : ℝ} (h : MonoPiece f a b) (ht : t ∈ Set.Icc a b) :
    min (f a) (f b) ≤ f t ∧ f t ≤ max (f a) (f b) := by
  have hab := ht.1.trans ht.2
  have ha : a ∈ Set.Icc a b := ⟨le_rfl, hab⟩
  have hb : b ∈ Set.Icc a b := ⟨hab, le_rfl⟩
  rcases h with h | h
  · exact ⟨min_le_of_left_le (h ha ht ht.1), le_max_of_le_right (h ht hb ht.2)⟩
  · exact ⟨min_le_of_right_le (h ht hb ht.2), le_max_of_le_left (h ha ht ht.1)⟩

theorem MonoPiece.integrable {f : ℝ → ℝ} {a b : ℝ} (hab : a ≤ b) (h : MonoPiece f a b) :
    IntervalIntegrable f MeasureTheory.volume a b := by
  rcases h with h | h
  · exact MonotoneOn.intervalIntegrable (by rwa [Set.uIcc_of_le hab])
  · exact AntitoneOn.intervalIntegrable (by rwa [Set.uIcc_of_le hab])

theorem dsum_integral (f : ℝ → ℝ) (x : ℝ) (xs : List ℝ) (hx : (x :: xs).IsChain (· ≤ ·))
    (hm : (x :: xs).IsChain (MonoPiece f)) :
    IntervalIntegrable f MeasureTheory.volume x ((x :: xs).getLast (by simp)) ∧
    dsum min x xs (f x) (xs.map f) ≤ ∫ t in x..((x :: xs).getLast (by simp)), f t ∧
    (∫ t in x..((x :: xs).getLast (by simp)), f t) ≤ dsum max x xs (f x) (xs.map f) := by
  induction xs generalizing x with
  | nil => simp [dsum]
  | cons x' xs ih =>
    have hx' := List.isChain_cons_cons.1 hx
    have hm' := List.isChain_cons_cons.1 hm
    obtain ⟨i1, i2, i3⟩ := ih x' hx'.2 hm'.2
    have j := hm'.1.integrable hx'.1
    simp only [List.getLast_cons_cons, List.map_cons, dsum]
    have e := intervalIntegral.integral_add_adjacent_intervals j i1
    have lo : ∫ t in x..x', min (f x) (f x') ≤ ∫ t in x..x', f t :=
      intervalIntegral.integral_mono_on hx'.1 (by simp) j (fun t ht => (hm'.1.bounds ht).1)
    have hi : (∫ t in x..x', f t) ≤ ∫ t in x..x', max (f x) (f x') :=
      intervalIntegral.integral_mono_on hx'.1 j (by simp) (fun t ht => (hm'.1.bounds ht).2)
    simp only [intervalIntegral.integral_const, smul_eq_mul] at lo hi
    refine ⟨j.trans i1, ?_, ?_⟩ <;> rw [← e] <;> linarith

theorem dsum_append (g : ℝ → ℝ → ℝ) (f : ℝ → ℝ) (x b : ℝ) (s t : List ℝ) :
    dsum g x (s ++ b :: t) (f x) ((s ++ b :: t).map f) =
      dsum g x (s ++ [b]) (f x) ((s ++ [b]).map f) + dsum g b t (f b) (t.map f) := by
  induction s generalizing x with
  | nil => simp [dsum]
  | cons c s ih =>
    simp only [List.cons_append, List.map_cons, dsum]
    rw [ih]; ring

/-- On a chain inside an interval where `f` is bounded by `m` and `M`. -/
theorem dsum_bounds (f : ℝ → ℝ) (m M x : ℝ) (xs : List ℝ) (hx : (x :: xs).IsChain (· ≤ ·))
    (hm : ∀ t, x ≤ t → t ≤ (x :: xs).getLast (by simp) → m ≤ f t ∧ f t ≤ M) :
    m * ((x :: xs).getLast (by simp) - x) ≤ dsum min x xs (f x) (xs.map f) ∧
    dsum max x xs (f x) (xs.map f) ≤ M * ((x :: xs).getLast (by simp) - x) := by
  induction xs generalizing x with
  | nil => simp [dsum]
  | cons x' xs ih =>
    have hx' := List.isChain_cons_cons.1 hx
    have hl := last_ge hx'.2
    simp only [List.getLast_cons_cons] at hm ⊢
    obtain ⟨h1, h2⟩ := ih x' hx'.2 (fun t h1 h2 => hm t (hx'.1.trans h1) h2)
    obtain ⟨a1, a2⟩ := hm x le_rfl (hx'.1.trans hl)
    obtain ⟨b1, b2⟩ := hm x' hx'.1 hl
    simp only [List.map_cons, dsum]
    have c1 := mul_le_mul_of_nonneg_right (le_min a1 b1) (sub_nonneg.2 hx'.1)
    have c2 := mul_le_mul_of_nonneg_right (max_le a2 b2) (sub_nonneg.2 hx'.1)
    constructor <;> nlinarith

theorem dsum_eq_sum (g : ℝ → ℝ → ℝ) (x y : ℝ) (xs ys : List ℝ) (h : xs.length = ys.length) :
    dsum g x xs y ys = ∑ i ∈ Finset.range xs.length,
      g ((y :: ys).getD i 0) ((y :: ys).getD (i + 1) 0) *
        ((x :: xs).getD (i + 1) 0 - (x :: xs).getD i 0) := by
  induction xs generalizing x y ys with
  | nil => cases ys <;> simp [dsum]
  | cons x' xs ih =>
    cases ys with
    | nil => simp at h
    | cons y' ys =>
      simp only [dsum, List.length_cons]
      rw [Finset.sum_range_succ', ih x' y' ys (by simpa using h)]
      simp only [List.getD_cons_succ, List.getD_cons_zero]
      rw [add_comm]

theorem refine_aux (f : ℝ → ℝ) (x : ℝ) (xs ys : List ℝ) (hsub : xs.Sublist ys)
    (hy : (x :: ys).IsChain (· ≤ ·))
    (hlast : (x :: xs).getLast (by simp) = (x :: ys).getLast (by simp))
    (hm : (x :: xs).IsChain (MonoPiece f)) :
    dsum min x xs (f x) (xs.map f) ≤ dsum min x ys (f x) (ys.map f) ∧
    dsum max x ys (f x) (ys.map f) ≤ dsum max x xs (f x) (xs.map f) := by
  induction xs generalizing x ys with
  | nil =>
    have b := dsum_bounds f (f x) (f x) x ys hy (by
      intro t h1 h2
      rw [← hlast] at h2; simp at h2
      have : t = x := le_antisymm h2 h1
      subst this; exact ⟨le_rfl, le_rfl⟩)
    rw [← hlast] at b
    simpa [dsum] using b
  | cons b xs ih =>
    obtain ⟨r1, r2, rfl, hb, hs⟩ := List.cons_sublist_iff.1 hsub
    obtain ⟨s, t, rfl⟩ := List.append_of_mem hb
    have hy' : (x :: (s ++ b :: (t ++ r2))).IsChain (· ≤ ·) := by simpa using hy
    have split : (x :: (s ++ [b])).IsChain (· ≤ ·) ∧ (b :: (t ++ r2)).IsChain (· ≤ ·) := by
      have h1 : ((x :: s) ++ b :: (t ++ r2)).IsChain (· ≤ ·) := by simpa using hy'
      exact ⟨by simpa using (List.isChain_split.1 h1).1, (List.isChain_split.1 h1).2⟩
    have hm' := List.isChain_cons_cons.1 hm
    have l1 : (x :: (s ++ [b])).getLast (by simp) = b := by simp
    have d := dsum_bounds f (min (f x) (f b)) (max (f x) (f b)) x (s ++ [b]) split.1 (by
      intro u h1 h2
      rw [l1] at h2
      exact hm'.1.bounds ⟨h1, h2⟩)
    rw [l1] at d
    obtain ⟨i1, i2⟩ := ih b (t ++ r2) (hs.trans (List.sublist_append_right _ _)) split.2 (by
      rw [List.getLast_cons_cons] at hlast
      rw [hlast]
      simp) hm'.2
    have e : s ++ b :: t ++ r2 = s ++ b :: (t ++ r2) := by simp
    rw [e, dsum_append min, dsum_append max]
    simp only [dsum, List.map_cons]
    constructor <;> linarith [d.1, d.2]

/-- the same on whole lists -/
def dsumL (g : ℝ → ℝ → ℝ) : List ℝ → List ℝ → ℝ
  | x :: xs, y :: ys => dsum g x xs y ys
  | _, _ => 0

theorem dsumL_snoc (g : ℝ → ℝ → ℝ) (a' a b' b : ℝ) (l m : List ℝ) (h : l.length = m.length) :
    dsumL g (l ++ [a', a]) (m ++ [b', b]) = dsumL g (l ++ [a']) (m ++ [b']) + g b' b * (a - a') := by
  cases l with
  | nil => cases m with
    | nil => simp [dsumL, dsum]
    | cons => simp at h
  | cons x xs => cases m with
    | nil => simp at h
    | cons y ys =>
      simp only [List.cons_append, dsumL]
      have h' : xs.length = ys.length := by simpa using h
      clear h
      induction xs generalizing x y ys with
      | nil => cases ys with
        | nil => simp [dsum]
        | cons => simp at h'
      | cons x' xs ih => cases ys with
        | nil => simp at h'
        | cons y' ys =>
          simp only [List.cons_append, dsum]
          rw [ih x' y' ys (by simpa using h')]; ring

theorem dsumL_reverse (g : ℝ → ℝ → ℝ) (hg : ∀ a b, g a b = g b a) (x y : List ℝ)
    (h : x.length = y.length) : dsumL g x.reverse y.reverse = - dsumL g x y := by
  induction x generalizing y with
  | nil => simp [dsumL]
  | cons a as ih => cases y with
    | nil => simp at h
    | cons b bs =>
      cases as with
      | nil => cases bs with
        | nil => simp [dsumL, dsum]
        | cons => simp at h
      | cons a' as => cases bs with
        | nil => simp at h
        | cons b' bs =>
          have hl : as.length = bs.length := by simpa using h
          have i := ih (b' :: bs) (by simpa using hl)
          simp only [List.reverse_cons] at i
          simp only [List.reverse_cons, List.append_assoc, List.cons_append, List.nil_append]
          rw [dsumL_snoc g a' a b' b _ _ (by simpa using hl), i, hg b' b]
          simp only [dsumL, dsum]; ring

theorem darboux_valsL (x y : List ℝ) (hne : x ≠ []) (h : x.length = y.length) :
    darboux (.vals (.arr y)) x = .ok (dsumL min x y, |dsumL max x y - dsumL min x y|) := by
  cases x with
  | nil => exact absurd rfl hne
  | cons x xs => cases y with
    | nil => simp at h
    | cons y ys => exact darboux_vals x y xs ys (by simpa using h)

theorem dsum_map (g g' : ℝ → ℝ → ℝ) (p q : ℝ → ℝ) (c : ℝ) 
    (h : ∀ a b u v, g' (q a) (q b) * (p v - p u) = c * (g a b * (v - u)))
    (x y : ℝ) (xs ys : List ℝ) :
    dsum g' (p x) (xs.map p) (q y) (ys.map q) = c * dsum g x xs y ys := by
  induction xs generalizing x y ys with
  | nil => cases ys <;> simp [dsum]
  | cons x' xs ih => cases ys with
    | nil => simp [dsum]
    | cons y' ys => simp only [List.map_cons, dsum, ih, h]; ring

theorem dsum_shift (g : ℝ → ℝ → ℝ) (c : ℝ) (h : ∀ a b, g (a + c) (b + c) = g a b + c)
    (x y : ℝ) (xs ys : List ℝ) (hl : xs.length = ys.length) :
    dsum g x xs (y + c) (ys.map (· + c)) = dsum g x xs y ys + c * ((x :: xs).getLast (by simp) - x) := by
  induction xs generalizing x y ys with
  | nil => cases ys <;> simp [dsum]
  | cons x' xs ih => cases ys with
    | nil => simp at hl
    | cons y' ys => 
      simp only [List.map_cons, dsum, h, List.getLast_cons_cons]
      rw [ih x' y' ys (by simpa using hl)]; ring

end Ries
