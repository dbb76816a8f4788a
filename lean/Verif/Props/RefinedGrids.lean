import Verif.Props.ReversedLimits
import Verif.Props.Darboux
import Verif.Props.DarbouxConv

/-! # Property C134: finer grids contain the coarser ones -/

namespace Ries

/-- `g` consists of every `k`-th point of `g'`, from the first to the last -/
def EveryKth {α : Type} (k : ℕ) (g g' : List α) : Prop :=
  g'.length = k * (g.length - 1) + 1 ∧ ∀ i < g.length, g'[k * i]? = g[i]?

theorem EveryKth.map {α β : Type} {k : ℕ} {g g' : List α} (h : EveryKth k g g') (f : α → β) : EveryKth k (g.map f) (g'.map f) := by
  refine ⟨by simpa using h.1, fun i hi => ?_⟩
  rw [List.length_map] at hi
  simp [h.2 i hi]

theorem everyKth_range {α : Type} {k : ℕ} (m : ℕ) {f f' : ℕ → α} (h : ∀ i ≤ m + 1, f' (k * i) = f i) :
    EveryKth k ((List.range (m + 2)).map f) ((List.range (k * (m + 1) + 1)).map f') := by
  refine ⟨by simp, fun i hi => ?_⟩
  simp only [List.length_map, List.length_range] at hi
  have h1 : k * i < k * (m + 1) + 1 := Nat.lt_succ_of_le (Nat.mul_le_mul_left _ (by omega))
  simp [h1, hi, h i (by omega)]

theorem smul_refine (x : Fl) {k m : ℕ} (hk : 0 < k) (i : ℕ) :
    (x.smul (1 / ((k : ℝ) * (m + 1)))).smul ((k * i : ℕ) : ℝ) = (x.smul (1 / ((m : ℝ) + 1))).smul (i : ℝ) := by
  have hm : (0 : ℝ) < (m : ℝ) + 1 := by positivity
  have hk' : (0 : ℝ) < k := by exact_mod_cast hk
  have h1 : (0 : ℝ) < 1 / ((k : ℝ) * (m + 1)) := by positivity
  have h2 : (0 : ℝ) < 1 / ((m : ℝ) + 1) := by positivity
  have h3 : (0 : ℝ) < ((k * i : ℕ) : ℝ) ↔ (0 : ℝ) < (i : ℝ) := by
    rw [Nat.cast_mul]; exact mul_pos_iff_of_pos_left hk'
  have h4 : ¬ ((k * i : ℕ) : ℝ) < 0 := not_lt.2 (Nat.cast_nonneg _)
  have h5 : ¬ (i : ℝ) < 0 := not_lt.2 (Nat.cast_nonneg _)
  cases x with
  | fin x =>
    simp only [Fl.smul, Fl.fin.injEq]
    push_cast
    field_simp
  | nan => rfl
  | pinf => simp only [Fl.smul, h1, h2, if_true, h3, h4, h5, if_false]
  | ninf => simp only [Fl.smul, h1, h2, if_true, h3, h4, h5, if_false]

theorem linspace_refine (a b : Fl) (m : ℕ) {k : ℕ} (hk : 0 < k) :
    ∃ g g', linspace a b ((m : ℤ) + 2) = .ok g ∧ linspace a b ((k : ℤ) * (m + 1) + 1) = .ok g' ∧ EveryKth k g g' := by
  obtain ⟨j, hj⟩ : ∃ j, k * (m + 1) + 1 = j + 2 := ⟨k * (m + 1) - 1, by
    have : 0 < k * (m + 1) := by positivity
    omega⟩
  have e : (k : ℤ) * (m + 1) + 1 = (j : ℤ) + 2 := by exact_mod_cast hj
  have e' : (j : ℝ) + 1 = k * (m + 1) := by
    have : k * (m + 1) = j + 1 := by omega
    exact_mod_cast this.symm
  have key : ∀ m : ℕ, linspace a b ((m : ℤ) + 2) = .ok ((List.range (m + 2)).map fun i =>
      if i ≤ m then (((b.add (a.smul (-1))).smul (1 / ((m : ℝ) + 1))).smul (i : ℝ)).add a else b) := by
    intro m
    unfold linspace
    have h0 : ¬ ((m : ℤ) + 2 < 0) := by omega
    have h1 : ((m : ℤ) + 2).toNat = m + 2 := by omega
    simp only [h0, if_false, h1, Except.ok.injEq]
    rw [List.range_succ (n := m + 1), List.map_append]
    have h2 : (((m : ℤ) + 2 : ℤ) : ℝ) - 1 = m + 1 := by push_cast; ring
    rw [h2]
    congr 1
    · refine List.map_congr_left fun i hi => ?_
      rw [if_pos (by rw [List.mem_range] at hi; omega)]
    · simp
  refine ⟨_, _, key m, by rw [e]; exact key j, ?_⟩
  rw [← hj]
  refine everyKth_range m fun i hi => ?_
  rw [e']
  by_cases h : i ≤ m
  · have : k * i ≤ k * m := Nat.mul_le_mul_left _ h
    have hkm : k * (m + 1) = k * m + k := by ring
    rw [if_pos h, if_pos (by omega), smul_refine _ hk]
  · obtain rfl : i = m + 1 := by omega
    rw [if_neg (by omega), if_neg (by omega)]

theorem setEnds_everyKth (a b : Fl) {k : ℕ} (hk : 0 < k) {g g' : List Fl} (h : EveryKth k g g') (hg : 2 ≤ g.length) :
    ∃ f f', Reso.setEnds a b g = .ok f ∧ Reso.setEnds a b g' = .ok f' ∧ EveryKth k f f' := by
  have key : ∀ l : List Fl, 2 ≤ l.length → ∃ f, Reso.setEnds a b l = .ok f ∧ f.length = l.length ∧
      ∀ i < l.length, f[i]? = if i = 0 then some a else if i = l.length - 1 then some b else l[i]? := by
    intro l hl
    match l, hl with
    | x :: y :: l, _ =>
      refine ⟨a :: ((y :: l).dropLast ++ [b]), rfl, by simp, fun i hi => ?_⟩
      cases i with
      | zero => simp
      | succ i =>
        simp only [List.length_cons] at hi ⊢
        simp only [Nat.add_eq_zero_iff, one_ne_zero, and_false, if_false, List.getElem?_cons_succ]
        by_cases h : i = l.length
        · subst h
          simp
        · rw [if_neg (by omega), List.getElem?_append_left (by simp; omega), List.getElem?_dropLast]
          simp; omega
  have hl' : g'.length = k * (g.length - 1) + 1 := h.1
  have hpos : 0 < k * (g.length - 1) := Nat.mul_pos hk (by omega)
  obtain ⟨f, h1, h2, h3⟩ := key g hg
  obtain ⟨f', h1', h2', h3'⟩ := key g' (by omega)
  refine ⟨f, f', h1, h1', by rw [h2, h2', hl'], fun i hi => ?_⟩
  rw [h2] at hi
  have hki : k * i ≤ k * (g.length - 1) := Nat.mul_le_mul_left _ (by omega)
  rw [h3 i hi, h3' (k * i) (by omega)]
  by_cases h0 : i = 0
  · simp [h0]
  · rw [if_neg h0, if_neg (by simp [h0, hk.ne'])]
    by_cases hl : i = g.length - 1
    · rw [if_pos hl, if_pos (by rw [hl', hl]; omega)]
    · rw [if_neg hl, if_neg, h.2 i hi]
      intro h
      have : k * i = k * (g.length - 1) := by omega
      exact hl (Nat.eq_of_mul_eq_mul_left hk this)

/-- box, Breit-Wigner and Gauss: the shapes whose quantiles scipy computes for each probability separately -/
def Shape.Elementwise : Shape → Prop
  | .pseudoVoigt _ _ => False
  | .voigt _ _ => False
  | _ => True

theorem build_elementwise {s : Shape} {k : PhysConst} {init inter : Level} {final : Option Level} {r : Reso}
    (h : s.build k init inter final = .ok r) (hs : s.Elementwise) : ∃ pdf cdf ppf lo hi, r.dist = scipyDist pdf cdf ppf lo hi := by
  obtain ⟨r0, d, ps, -, hd, rfl⟩ := build_inv h
  simp only
  cases s with
  | box R =>
    simp only [Shape.distOf, Except.ok.injEq, Prod.mk.injEq] at hd
    rw [← hd.1]; exact ⟨_, _, _, _, _, rfl⟩
  | breitWigner =>
    simp only [Shape.distOf, bind, Except.bind] at hd
    split at hd
    · simp at hd
    · simp only [Except.ok.injEq, Prod.mk.injEq] at hd
      rw [← hd.1]; exact ⟨_, _, _, _, _, rfl⟩
  | gauss amu T =>
    simp only [Shape.distOf, bind, Except.bind] at hd
    split at hd
    · simp at hd
    · simp only [Except.ok.injEq, Prod.mk.injEq] at hd
      rw [← hd.1]; exact ⟨_, _, _, _, _, rfl⟩
  | pseudoVoigt amu T => exact absurd hs id
  | voigt amu T => exact absurd hs id

/-- C134: For box, Breit-Wigner and Gauss resonances, for limits and for coverages, dividing every interval of an equal-probability grid
into `k` gives the grid with `k (n - 1) + 1` points: the coarse grid consists of every `k`-th point of the fine one. -/
theorem C134_probability_grid {s : Shape} {c : PhysConst} {init inter : Level} {final : Option Level} {r : Reso}
    (h : s.build c init inter final = .ok r) (hs : s.Elementwise) (req : Req) {n : ℤ} (hn : 2 ≤ n) {k : ℕ} (hk : 0 < k) :
    (∃ e, r.probGrid req n = .error e ∧ r.probGrid req (k * (n - 1) + 1) = .error e) ∨
    ∃ g g', r.probGrid req n = .ok (some g) ∧ r.probGrid req (k * (n - 1) + 1) = .ok (some g') ∧ EveryKth k g g' := by
  obtain ⟨pdf, cdf, ppf, lo, hi, hd⟩ := build_elementwise h hs
  obtain ⟨m, rfl⟩ : ∃ m : ℕ, n = m + 2 := ⟨(n - 2).toNat, by omega⟩
  have hn' : (k : ℤ) * ((m : ℤ) + 2 - 1) + 1 = k * (m + 1) + 1 := by ring
  rw [hn']
  unfold Reso.probGrid
  simp only [hd, scipyDist, bind, Except.bind]
  cases hl : locScale r.params with
  | error e =>
    left
    cases req with
    | cov p =>
      obtain ⟨g, g', h1, h2, -⟩ := linspace_refine (.fin (0.5 * (1 - p))) (.fin (0.5 * (1 + p))) m hk
      exact ⟨e, by simp only [h1], by simp only [h2]⟩
    | lims a b => exact ⟨e, rfl, rfl⟩
  | ok ls =>
    right
    cases req with
    | cov p =>
      obtain ⟨g, g', h1, h2, h3⟩ := linspace_refine (.fin (0.5 * (1 - p))) (.fin (0.5 * (1 + p))) m hk
      simp only [h1, h2]
      exact ⟨_, _, rfl, rfl, h3.map _⟩
    | lims a b =>
      obtain ⟨g, g', h1, h2, h3⟩ := linspace_refine (if 0 < ls.2 then .fin (cdf ls.1 ls.2 a) else .nan)
        (if 0 < ls.2 then .fin (cdf ls.1 ls.2 b) else .nan) m hk
      have hlen : g.length = m + 2 := by
        have := (linspace_length h1).2
        omega
      simp only [List.map_cons, List.map_nil, h1, h2]
      obtain ⟨f, f', e1, e2, e3⟩ := setEnds_everyKth (.fin a) (.fin b) hk
        (h3.map fun q => if 0 < ls.2 then ppfAt (lo ls.1 ls.2) (hi ls.1 ls.2) (ppf ls.1 ls.2) q else .nan) (by simp [hlen])
      exact ⟨f, f', by simp only [e1, Except.map], by simp only [e2, Except.map], e3⟩

/-- C134: the same for the energy grids of all resonances, with limits and coverages, of other cross sections and of constants. -/
theorem C134_energy_grid (r : Reso) (req : Req) {n : ℤ} (hn : 2 ≤ n) {k : ℕ} (hk : 0 < k) :
    ((∃ e, r.energyGrid req n = .error e ∧ r.energyGrid req (k * (n - 1) + 1) = .error e) ∨
      ∃ g g', r.energyGrid req n = .ok g ∧ r.energyGrid req (k * (n - 1) + 1) = .ok g' ∧ EveryKth k g g') ∧
    ∀ a b, ∃ g g', energyGrid (.lims a b) n = .ok g ∧ energyGrid (.lims a b) (k * (n - 1) + 1) = .ok g' ∧ EveryKth k g g' ∧
      constGrid (.lims a b) n = .ok g ∧ constGrid (.lims a b) (k * (n - 1) + 1) = .ok g' := by
  obtain ⟨m, rfl⟩ : ∃ m : ℕ, n = m + 2 := ⟨(n - 2).toNat, by omega⟩
  have hn' : (k : ℤ) * ((m : ℤ) + 2 - 1) + 1 = k * (m + 1) + 1 := by ring
  rw [hn']
  refine ⟨?_, fun a b => ?_⟩
  · cases req with
    | cov c =>
      simp only [Reso.energyGrid, bind, Except.bind]
      cases r.coverageInterval c with
      | error e => exact Or.inl ⟨e, rfl, rfl⟩
      | ok ci => exact Or.inr (linspace_refine ci.lo ci.hi m hk)
    | lims a b => exact Or.inr (linspace_refine (.fin a) (.fin b) m hk)
  · obtain ⟨g, g', h1, h2, h3⟩ := linspace_refine (.fin a) (.fin b) m hk
    exact ⟨g, g', h1, h2, h3, h1, h2⟩

/-! ## Sums -/

/-- A nonresonant process with the grid of its base class, or a resonance with elementwise quantiles. -/
def ElementwiseLeaf (l : Leaf) : Prop :=
  l.grid = constGrid ∨ ∃ s k init inter final r, Shape.build s k init inter final = .ok r ∧ s.Elementwise ∧ l = r.toLeaf

mutual
/-- every constituent of an object at any depth is a constant or an elementwise leaf -/
def Obj.Elementwise : Obj → Prop
  | .num _ => True
  | .leaf l => ElementwiseLeaf l
  | .const _ => True
  | .wsum rs _ => Obj.Elementwises rs
/-- for lists -/
def Obj.Elementwises : List Obj → Prop
  | [] => True
  | o :: os => o.Elementwise ∧ Obj.Elementwises os
end

/-- the same exception, or all points are contained in the other grid -/
def ContainedE : Except Err (List Fl) → Except Err (List Fl) → Prop
  | .error e, .error e' => e = e'
  | .ok g, .ok g' => g ⊆ g'
  | _, _ => False

theorem EveryKth.subset {α : Type} {k : ℕ} {g g' : List α} (h : EveryKth k g g') : g ⊆ g' := by
  intro x hx
  obtain ⟨i, hi, rfl⟩ := List.getElem_of_mem hx
  exact List.mem_of_getElem? ((h.2 i hi).trans (List.getElem?_eq_getElem hi))

theorem constGrid_contained (req : Req) {n : ℤ} (hn : 2 ≤ n) {k : ℕ} (hk : 0 < k) :
    ContainedE (constGrid req n) (constGrid req (k * (n - 1) + 1)) := by
  obtain ⟨m, rfl⟩ : ∃ m : ℕ, n = m + 2 := ⟨(n - 2).toNat, by omega⟩
  rw [show (k : ℤ) * ((m : ℤ) + 2 - 1) + 1 = k * (m + 1) + 1 by ring]
  cases req with
  | cov c => exact rfl
  | lims a b =>
    obtain ⟨g, g', h1, h2, h3⟩ := linspace_refine (.fin a) (.fin b) m hk
    simp only [constGrid, h1, h2, ContainedE]
    exact h3.subset

theorem leaf_contained {l : Leaf} (h : ElementwiseLeaf l) (req : Req) {n : ℤ} (hn : 2 ≤ n) {k : ℕ} (hk : 0 < k) :
    ContainedE (l.grid req n) (l.grid req (k * (n - 1) + 1)) := by
  rcases h with h | ⟨s, c, init, inter, final, r, hr, hs, rfl⟩
  · rw [h]; exact constGrid_contained req hn hk
  · rcases C134_probability_grid hr hs req hn hk with ⟨e, h1, h2⟩ | ⟨g, g', h1, h2, h3⟩
    · simp only [Reso.toLeaf, bind, Except.bind, h1, h2, ContainedE]
    · simp only [Reso.toLeaf, bind, Except.bind, h1, h2, ContainedE]
      exact h3.subset

theorem mem_npUnique {x : Fl} {g : List Fl} : x ∈ npUnique g ↔ x ∈ g := by
  unfold npUnique; rw [List.mem_insertionSort, List.mem_dedup]

theorem npUnique_pairwise (g : List Fl) : (npUnique g).Pairwise (· ≤ ·) := List.pairwise_insertionSort _ _

theorem npUnique_nodup (g : List Fl) : (npUnique g).Nodup := by
  unfold npUnique; exact (List.perm_insertionSort _ _).nodup_iff.2 (List.nodup_dedup _)

mutual
theorem grid_contained : ∀ (o : Obj), o.Elementwise → ∀ (req : Req) {n : ℤ}, 2 ≤ n → ∀ {k : ℕ}, 0 < k →
    ContainedE (o.probGrid req n) (o.probGrid req (k * (n - 1) + 1))
  | .num _, _, req, n, hn, k, hk => by simp only [Obj.probGrid]; rfl
  | .leaf l, h, req, n, hn, k, hk => by
      simp only [Obj.probGrid]
      exact leaf_contained (by simpa [Obj.Elementwise] using h) req hn hk
  | .const c, _, req, n, hn, k, hk => by
      simp only [Obj.probGrid]
      exact constGrid_contained req hn hk
  | .wsum rs ss, h, req, n, hn, k, hk => by
      simp only [Obj.probGrid, bind, Except.bind]
      have := grids_contained rs (by simpa [Obj.Elementwise] using h) req hn hk
      revert this
      cases Obj.probGrids rs req n <;> cases Obj.probGrids rs req (k * (n - 1) + 1) <;> intro this
      · exact this
      · exact this
      · exact this
      · intro x hx
        exact mem_npUnique.2 (this (mem_npUnique.1 hx))
theorem grids_contained : ∀ (os : List Obj), Obj.Elementwises os → ∀ (req : Req) {n : ℤ}, 2 ≤ n → ∀ {k : ℕ}, 0 < k →
    ContainedE (Obj.probGrids os req n) (Obj.probGrids os req (k * (n - 1) + 1))
  | [], _, req, n, hn, k, hk => by simp [Obj.probGrids, ContainedE]
  | o :: os, h, req, n, hn, k, hk => by
      rw [Obj.Elementwises] at h
      simp only [Obj.probGrids, bind, Except.bind]
      have h1 := grid_contained o h.1 req hn hk
      have h2 := grids_contained os h.2 req hn hk
      revert h1 h2
      cases o.probGrid req n <;> cases o.probGrid req (k * (n - 1) + 1) <;> intro h1
      · exact fun _ => h1
      · exact absurd h1 (by simp [ContainedE])
      · exact absurd h1 (by simp [ContainedE])
      · cases Obj.probGrids os req n <;> cases Obj.probGrids os req (k * (n - 1) + 1) <;> intro h2
        · exact h2
        · exact h2
        · exact h2
        · exact List.append_subset.2 ⟨fun x hx => List.mem_append_left _ (h1 hx), fun x hx => List.mem_append_right _ (h2 hx)⟩
end

/-- C134: the grid of a weighted sum, nested in any way, is part of the grid with `k (n - 1) + 1` points per cross section. -/
theorem C134_sum_grid (rs ss : List Obj) (h : (Obj.wsum rs ss).Elementwise) (req : Req) {n : ℤ} (hn : 2 ≤ n) {k : ℕ} (hk : 0 < k) :
    (∃ e, (Obj.wsum rs ss).probGrid req n = .error e ∧ (Obj.wsum rs ss).probGrid req (k * (n - 1) + 1) = .error e) ∨
    ∃ g g', (Obj.wsum rs ss).probGrid req n = .ok g ∧ (Obj.wsum rs ss).probGrid req (k * (n - 1) + 1) = .ok g' ∧ g.Sublist g' := by
  have := grids_contained rs (by simpa [Obj.Elementwise] using h) req hn hk
  simp only [Obj.probGrid, bind, Except.bind]
  revert this
  cases Obj.probGrids rs req n <;> cases Obj.probGrids rs req (k * (n - 1) + 1) <;> intro this
  · simp only [ContainedE] at this; subst this; exact Or.inl ⟨_, rfl, rfl⟩
  · exact absurd this (by simp [ContainedE])
  · exact absurd this (by simp [ContainedE])
  · refine Or.inr ⟨_, _, rfl, rfl, ?_⟩
    exact List.sublist_of_subperm_of_pairwise
      (List.subperm_of_subset (npUnique_nodup _) fun x hx => mem_npUnique.2 (this (mem_npUnique.1 hx)))
      (npUnique_pairwise _) (npUnique_pairwise _)

/-! ## Darboux sums -/

/-- C134: for a coverage and an odd number of points, the Darboux sums on the finer grid are better: the lower sum does not fall, the upper
sum does not rise, and both bracket the covered part of the integral. -/
theorem C134_darboux {r : Reso} (h : IsBreitWigner r ∨ IsGauss r) (hI : 0 < r.ics) {c : ℝ} (h0 : 0 < c) (h1 : c < 1) (m : ℕ) {k : ℕ}
    (hk : 0 < k) {σ : ℝ → ℝ} (hσ : r.HasSigma σ) :
    ∃ (g g' : List ℝ) (L D L' D' : ℝ), r.probGrid (.cov c) (2 * m + 3) = .ok (some (g.map .fin)) ∧
      r.probGrid (.cov c) (k * (2 * m + 2) + 1) = .ok (some (g'.map .fin)) ∧ EveryKth k g g' ∧
      darboux (vectorised σ) g = .ok (L, D) ∧ darboux (vectorised σ) g' = .ok (L', D') ∧
      L ≤ L' ∧ L' ≤ c * (∫ E, σ E) ∧ c * (∫ E, σ E) ≤ L' + D' ∧ L' + D' ≤ L + D := by
  obtain ⟨j, hj⟩ : ∃ j, k * (m + 1) = j + 1 := ⟨k * (m + 1) - 1, by
    have : 0 < k * (m + 1) := by positivity
    omega⟩
  have ej : (k : ℤ) * (2 * m + 2) + 1 = 2 * j + 3 := by
    have : (k : ℤ) * (m + 1) = j + 1 := by exact_mod_cast hj
    linarith
  obtain ⟨g, L, D, hg, hm, hd, -, -⟩ := C87_odd_grid h hI h0 h1 m hσ
  obtain ⟨g', L', D', hg', -, hd', hL', hU'⟩ := C87_odd_grid h hI h0 h1 j hσ
  have incr : ∀ (n : ℤ), 2 ≤ n → ∀ g : List ℝ, r.probGrid (.cov c) n = .ok (some (g.map .fin)) →
      g.Pairwise (· < ·) ∧ (g.length : ℤ) = n := by
    intro n hn g hg
    obtain ⟨g1, _, _, _, hg1, _, hl, _, _, hp, _⟩ := C12_coverage_grid h h0 h1 n hn
    rw [hg1] at hg
    simp only [Except.ok.injEq, Option.some.injEq] at hg
    have := List.map_injective_iff.2 (fun a b h => by simpa using h : Function.Injective Fl.fin) hg
    exact this ▸ ⟨hp, hl⟩
  obtain ⟨hp, hl⟩ := incr _ (by omega) g hg
  obtain ⟨hp', hl'⟩ := incr _ (by omega) g' hg'
  obtain ⟨s, c0, init, inter, final, hb, hs⟩ : ∃ s c0 init inter final, Shape.build s c0 init inter final = .ok r ∧ s.Elementwise := by
    rcases h with ⟨c0, init, inter, final, w, hb, -⟩ | ⟨c0, init, inter, amu, T, final, hb, -⟩
    · exact ⟨.breitWigner, c0, init, inter, final, hb, trivial⟩
    · exact ⟨.gauss amu T, c0, init, inter, final, hb, trivial⟩
  have hev : EveryKth k g g' := by
    rcases C134_probability_grid hb hs (.cov c) (n := 2 * m + 3) (by omega) hk with ⟨e, e1, -⟩ | ⟨f, f', e1, e2, e3⟩
    · rw [hg] at e1; cases e1
    · rw [hg] at e1
      rw [show (k : ℤ) * (2 * m + 3 - 1) + 1 = 2 * j + 3 by rw [← ej]; ring, hg'] at e2
      simp only [Except.ok.injEq, Option.some.injEq] at e1 e2
      subst e1 e2
      refine ⟨by simpa using e3.1, fun i hi => ?_⟩
      have := e3.2 i (by simpa using hi)
      rw [List.getElem?_map, List.getElem?_map] at this
      exact Option.map_injective (fun a b h => by simpa using h : Function.Injective Fl.fin) this
  have hsub : g.Sublist g' := List.sublist_of_subperm_of_pairwise (List.subperm_of_subset (hp.imp ne_of_lt) hev.subset)
    (hp.imp le_of_lt) (hp'.imp le_of_lt)
  have hne : g ≠ [] := by rintro rfl; simp at hm
  have hne' : g' ≠ [] := by rintro rfl; exact hne (List.sublist_nil.1 hsub)
  have hpos : 0 < g.length := List.length_pos_iff.2 hne
  obtain ⟨p, hpk, hpos', hσp⟩ := peaked_of (r := r) (by tauto)
  have hpk : Peaked r.er σ := by rw [sigma_unique hσ hσp]; exact hpk.const_mul hI
  obtain ⟨L1, D1, L2, D2, e1, e2, e3, e4⟩ := C63_refinement σ g g' hne hne' hsub (hp'.imp le_of_lt).isChain
    (by
      have := hev.2 0 hpos
      rw [mul_zero] at this
      rw [List.head_eq_getElem, List.head_eq_getElem]
      rw [List.getElem?_eq_getElem (List.length_pos_iff.2 hne'), List.getElem?_eq_getElem hpos, Option.some.injEq] at this
      exact this.symm)
    (by
      have := hev.2 (g.length - 1) (by omega)
      have hl := hev.1
      rw [List.getLast_eq_getElem, List.getLast_eq_getElem]
      rw [List.getElem?_eq_getElem (by omega), List.getElem?_eq_getElem (by omega), Option.some.injEq] at this
      rw [← this]
      congr 1
      omega)
    ((chain_avoids (hp.imp le_of_lt) hm).imp fun s t h => peaked_piece hpk h)
  rw [hd] at e1; rw [hd'] at e2
  simp only [Except.ok.injEq, Prod.mk.injEq] at e1 e2
  obtain ⟨rfl, rfl⟩ := e1
  obtain ⟨rfl, rfl⟩ := e2
  exact ⟨g, g', L, D, L', D', hg, by rw [ej]; exact hg', hev, hd, hd', e3, hL', hU', e4⟩

/-- The hypotheses are met. -/
example : ∃ (r : Reso) (σ : ℝ → ℝ), (IsBreitWigner r ∨ IsGauss r) ∧ 0 < r.ics ∧ r.HasSigma σ := by
  obtain ⟨r, h, -, hI⟩ := exMid_resonance
  have hB : IsBreitWigner { r with dist := cauchyDist, params := [r.er, 0.5 * 1e-5] } :=
    ⟨exConst, exGround, exMid, none, 1e-5, by simp [mkBreitWigner, h, exMid_width, Bind.bind, Except.bind], exMid_width, by norm_num⟩
  obtain ⟨F, p, Q, hA⟩ := analytic_of (Or.inl hB)
  exact ⟨_, _, Or.inl hB, hI, hA.sigma⟩

example : ∃ r, Shape.breitWigner.build exConst exGround exExcited none = .ok r ∧ Shape.breitWigner.Elementwise ∧
    (Obj.wsum [.leaf r.toLeaf, .const 1] [.num 1, .num 1]).Elementwise := by
  obtain ⟨r, h, -⟩ := exBreitWigner
  refine ⟨r, h, trivial, ?_⟩
  simp only [Obj.Elementwise, Obj.Elementwises, and_true]
  exact Or.inr ⟨.breitWigner, _, _, _, _, r, h, trivial, rfl⟩

/-- The grid 0, 1/2, 1 is every second point of 0, 1/4, 1/2, 3/4, 1. -/
example : EveryKth 2 [0, 2, 4] [0, 1, 2, 3, 4] := by
  refine ⟨rfl, fun i hi => ?_⟩
  simp only [List.length_cons, List.length_nil] at hi
  interval_cases i <;> rfl

end Ries
