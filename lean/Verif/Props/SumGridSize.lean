import Verif.Props.Grid
import Verif.Props.Resonance

/-! # Property C154: number of points of the grid of a sum -/

namespace Ries

open Obj

/-- a grid with `n` points from `a` to `b`, strictly increasing -/
def GridFromTo (a b : ℝ) (n : ℕ) (g : List ℝ) : Prop :=
  g.length = n ∧ g.head? = some a ∧ g.getLast? = some b ∧ g.Pairwise (· < ·)

theorem npUnique_length (l : List Fl) : (npUnique l).length = l.dedup.length := by
  simp [npUnique, List.length_insertionSort]

open Classical in
theorem dedup_card (l : List Fl) : l.dedup.length = l.toFinset.card := by
  rw [List.card_toFinset]

open Classical in
/-- the points of a grid besides its ends -/
theorem interior_card {a b : ℝ} {n : ℕ} (hn : 2 ≤ n) {g : List ℝ} (hg : GridFromTo a b n g) (s : Finset Fl)
    (ha : Fl.fin a ∈ s) (hb : Fl.fin b ∈ s) : ((g.map Fl.fin).toFinset ∪ s).card ≤ (n - 2) + s.card := by
  obtain ⟨hl, hh, ht, -⟩ := hg
  match g, hl with
  | [], hl => simp at hl; omega
  | [x], hl => simp at hl; omega
  | x :: y :: t, hl =>
    simp only [List.head?_cons, Option.some.injEq] at hh
    subst hh
    have e : y :: t = (y :: t).dropLast ++ [b] := by
      rw [List.getLast?_cons_cons] at ht
      exact (List.dropLast_append_getLast? b ht).symm
    have hmid : ((y :: t).dropLast).length = n - 2 := by
      rw [List.length_dropLast]; simp at hl ⊢; omega
    have hsub : ((x :: y :: t).map Fl.fin).toFinset ∪ s ⊆ (((y :: t).dropLast).map Fl.fin).toFinset ∪ s := by
      intro z hz
      rw [e] at hz
      simp only [List.map_cons, List.map_append, List.map_nil, List.toFinset_cons, List.toFinset_append, Finset.mem_union,
        Finset.mem_insert, List.mem_toFinset, or_false, List.toFinset_nil, Finset.notMem_empty] at hz ⊢
      rcases hz with (rfl | h | rfl) | h
      · exact .inr ha
      · exact .inl h
      · exact .inr hb
      · exact .inr h
    calc _ ≤ _ := Finset.card_le_card hsub
      _ ≤ (((y :: t).dropLast).map Fl.fin).toFinset.card + s.card := Finset.card_union_le _ _
      _ ≤ _ := by
        have := List.toFinset_card_le (((y :: t).dropLast).map Fl.fin)
        rw [List.length_map, hmid] at this
        omega

open Classical in
theorem probGrids_card {a b : ℝ} {n : ℕ} (hn : 2 ≤ n) {r : Req} {k : ℤ} (rs : List Obj)
    (h : ∀ o ∈ rs, ∃ g, o.probGrid r k = .ok (g.map .fin) ∧ GridFromTo a b n g) :
    ∃ gs, probGrids rs r k = .ok gs ∧ (gs.toFinset ∪ {Fl.fin a, Fl.fin b}).card ≤ rs.length * (n - 2) + 2 ∧
      ∀ o ∈ rs, ∀ g, o.probGrid r k = .ok g → g ⊆ gs := by
  induction rs with
  | nil => exact ⟨[], rfl, by simpa using Finset.card_le_two, by simp⟩
  | cons o rs ih =>
    obtain ⟨g, h1, h2⟩ := h o (by simp)
    obtain ⟨gs, h3, h4, h5⟩ := ih fun o ho => h o (by simp [ho])
    refine ⟨g.map .fin ++ gs, by simp [probGrids, h1, h3, bind, Except.bind], ?_, ?_⟩
    · rw [List.toFinset_append, Finset.union_assoc]
      have := interior_card hn h2 (gs.toFinset ∪ {Fl.fin a, Fl.fin b}) (by simp) (by simp)
      simp only [List.length_cons, Nat.add_mul, Nat.one_mul]
      omega
    · intro o' ho' g' hg'
      rcases List.mem_cons.1 ho' with rfl | ho'
      · rw [h1] at hg'; cases hg'; exact List.subset_append_left _ _
      · exact fun x hx => List.mem_append_right _ (h5 o' ho' g' hg' hx)

/-- C154: if each of the `k` constituents of a sum contributes a grid of `n` points between the same limits, then the grid of the
sum has at least `n` and at most `k (n - 2) + 2` points. -/
theorem C154_size {a b : ℝ} {n : ℕ} (hn : 2 ≤ n) (rs ss : List Obj) (hne : rs ≠ []) (r : Req) (k : ℤ)
    (h : ∀ o ∈ rs, ∃ g, o.probGrid r k = .ok (g.map .fin) ∧ GridFromTo a b n g) :
    ∃ g, (Obj.wsum rs ss).probGrid r k = .ok g ∧ n ≤ g.length ∧ g.length ≤ rs.length * (n - 2) + 2 := by
  classical
  obtain ⟨gs, h1, h2, h3⟩ := probGrids_card hn rs h
  refine ⟨npUnique gs, by simp [probGrid, h1, bind, Except.bind], ?_, ?_⟩
  · obtain ⟨o, ho⟩ := List.exists_mem_of_ne_nil rs hne
    obtain ⟨g, e1, e2, -, -, e3⟩ := h o ho
    rw [npUnique_length]
    have hnd : (g.map Fl.fin).Nodup :=
      List.Nodup.map (fun x y hxy => by simpa using hxy) (e3.imp fun hxy => hxy.ne)
    have : (g.map Fl.fin).Subperm gs.dedup :=
      hnd.subperm fun x hx => List.mem_dedup.2 (h3 o ho _ e1 hx)
    have := this.length_le
    rw [List.length_map, e2] at this
    exact this
  · rw [npUnique_length, dedup_card]
    exact (Finset.card_le_card Finset.subset_union_left).trans h2

theorem probGrids_same {r : Req} {k : ℤ} {g : List Fl} (rs : List Obj) (h : ∀ o ∈ rs, o.probGrid r k = .ok g) :
    ∃ gs, probGrids rs r k = .ok gs ∧ gs ⊆ g ∧ (rs ≠ [] → g ⊆ gs) := by
  induction rs with
  | nil => exact ⟨[], rfl, by simp, by simp⟩
  | cons o rs ih =>
    obtain ⟨gs, h1, h2, -⟩ := ih fun o ho => h o (by simp [ho])
    refine ⟨g ++ gs, by simp [probGrids, h o (by simp), h1, bind, Except.bind], ?_, fun _ => List.subset_append_left _ _⟩
    exact List.append_subset.2 ⟨fun x hx => hx, h2⟩

/-- C154: the lower bound is attained: constituents with the same grid (constants and all other nonresonant cross sections) add
nothing. -/
theorem C154_same {a b : ℝ} {n : ℕ} (rs ss : List Obj) (hne : rs ≠ []) (r : Req) (k : ℤ) (g : List ℝ)
    (hg : GridFromTo a b n g) (h : ∀ o ∈ rs, o.probGrid r k = .ok (g.map .fin)) :
    (Obj.wsum rs ss).probGrid r k = .ok (g.map .fin) := by
  classical
  obtain ⟨gs, h1, h2, h3⟩ := probGrids_same rs h
  have e : (Obj.wsum rs ss).probGrid r k = .ok (npUnique gs) := by simp [probGrid, h1, bind, Except.bind]
  rw [e]
  congr 1
  have hnd : (g.map Fl.fin).Nodup :=
    List.Nodup.map (fun x y hxy => by simpa using hxy) (hg.2.2.2.imp fun hxy => hxy.ne)
  have hp : (npUnique gs).Perm (g.map Fl.fin) := by
    refine (List.perm_insertionSort _ _).trans ?_
    refine (List.perm_ext_iff_of_nodup (List.nodup_dedup _) hnd).2 fun x => ?_
    rw [List.mem_dedup]
    exact ⟨fun hx => h2 hx, fun hx => h3 hne hx⟩
  refine hp.eq_of_pairwise (fun x y _ _ hxy hyx => le_antisymm hxy hyx) (List.pairwise_insertionSort _ _) ?_
  rw [List.pairwise_map]
  exact hg.2.2.2.imp fun hxy => Fl.fin_le_fin.2 hxy.le

/-- the equidistant grid used by constants and by all nonresonant cross sections -/
theorem constGrid_fromTo {a b : ℝ} (hab : a < b) (n : ℕ) (hn : 2 ≤ n) :
    ∃ g, constGrid (.lims a b) n = .ok (g.map .fin) ∧ GridFromTo a b n g := by
  obtain ⟨g, f1, f2, f3, f4, f5, -⟩ := C10_energy_grid a b n (by exact_mod_cast hn)
  refine ⟨g, f1, by exact_mod_cast f2, f3, f4, ?_⟩
  rw [← List.isChain_iff_pairwise, List.isChain_iff_getElem]
  intro i hi
  have := f5 i hi
  have h1 : (0 : ℝ) < (b - a) / (((n : ℕ) : ℤ) - 1) := by
    have : (2 : ℝ) ≤ n := by exact_mod_cast hn
    push_cast
    exact div_pos (by linarith) (by linarith)
  linarith

/-- C154: a sum of constants and nonresonant cross sections has exactly the `n` points of the equidistant grid. -/
theorem C154_nonresonant {a b : ℝ} (hab : a < b) (n : ℕ) (hn : 2 ≤ n) (rs ss : List Obj) (hne : rs ≠ [])
    (h : ∀ o ∈ rs, o.probGrid (.lims a b) n = constGrid (.lims a b) n) :
    (Obj.wsum rs ss).probGrid (.lims a b) n = constGrid (.lims a b) n ∧
      ∃ g, (Obj.wsum rs ss).probGrid (.lims a b) n = .ok (g.map .fin) ∧ GridFromTo a b n g := by
  obtain ⟨g, h1, h2⟩ := constGrid_fromTo hab n hn
  have := C154_same rs ss hne (.lims a b) n g h2 fun o ho => by rw [h o ho, h1]
  exact ⟨by rw [this, h1], g, this, h2⟩

/-- a constant and a Breit-Wigner resonance between the same limits -/
example : ∃ (rs : List Obj), rs.length = 2 ∧
    ∀ o ∈ rs, ∃ g, o.probGrid (.lims 1 3) 10 = .ok (g.map .fin) ∧ GridFromTo 1 3 10 g := by
  obtain ⟨r, h⟩ := exIsBreitWigner
  obtain ⟨g1, σ, e1, -, e2, e3, e4, e5, -⟩ := C11_limits_grid (.inl h) (show (1 : ℝ) < 3 by norm_num) 10 (by norm_num)
  refine ⟨[.leaf r.toLeaf, .const 1], rfl, fun o ho => ?_⟩
  rcases List.mem_cons.1 ho with rfl | ho
  · refine ⟨g1, ?_, by exact_mod_cast e2, e3, e4, e5⟩
    simp [probGrid, Reso.toLeaf, e1, bind, Except.bind]
  · obtain rfl : o = .const 1 := by simpa using ho
    exact constGrid_fromTo (by norm_num) 10 (by norm_num)

end Ries
