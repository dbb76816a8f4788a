import Verif.Lemmas.Xrmac
import Mathlib.Topology.Order.OrderClosed
import Mathlib.Topology.Algebra.Order.LiminfLimsup
import Mathlib.Analysis.SpecialFunctions.Pow.Continuity

/-! # Continuity of the interpolation of sorted tables -/

open Filter Topology Set

namespace Ries

/-- the linear interpolation between two nodes, constant to the left of the first -/
noncomputable def ramp (a b : ℝ × ℝ) (x : ℝ) : ℝ :=
  (b.2 - a.2) / (b.1 - a.1) * (max x a.1 - a.1) + a.2

/-- the interpolation of nodes with finite values, constant outside the nodes -/
noncomputable def interpR : List (ℝ × ℝ) → ℝ → ℝ
  | [], _ => 0
  | [a], _ => a.2
  | a :: b :: rest, x => if b.1 ≤ x then interpR (b :: rest) x else ramp a b x

theorem ramp_continuous (a b : ℝ × ℝ) : Continuous (ramp a b) := by
  unfold ramp; fun_prop

theorem ramp_left {a b : ℝ × ℝ} {x : ℝ} (h : x ≤ a.1) : ramp a b x = a.2 := by
  simp [ramp, max_eq_right h]

theorem ramp_right {a b : ℝ × ℝ} (h : a.1 < b.1) : ramp a b b.1 = b.2 := by
  have : b.1 - a.1 ≠ 0 := by linarith
  rw [ramp, max_eq_left h.le]; field_simp; ring

/-- left of the nodes the value is the one of the first node -/
theorem interpR_left {a : ℝ × ℝ} {s : List (ℝ × ℝ)} (hs : (a :: s).Pairwise fun p q => p.1 ≤ q.1) {x : ℝ}
    (h : x < a.1 ∨ (x = a.1 ∧ ∀ p ∈ s, p.1 ≠ x)) : interpR (a :: s) x = a.2 := by
  cases s with
  | nil => rfl
  | cons b s =>
    have hab : a.1 ≤ b.1 := (List.pairwise_cons.1 hs).1 b (by simp)
    have hxb : x < b.1 := by
      rcases h with h | ⟨rfl, h⟩
      · linarith
      · exact lt_of_le_of_ne hab (h b (by simp)).symm
    have hxa : x ≤ a.1 := by rcases h with h | ⟨h, -⟩ <;> linarith
    rw [interpR, if_neg (not_le.2 hxb), ramp_left hxa]

theorem interpR_right (s : List (ℝ × ℝ)) (hs : s.Pairwise fun p q => p.1 ≤ q.1) (x : ℝ) :
    ContinuousWithinAt (interpR s) (Ici x) x := by
  induction s with
  | nil => exact continuousWithinAt_const
  | cons a s ih =>
    cases s with
    | nil => exact continuousWithinAt_const
    | cons b s =>
      rcases lt_or_ge x b.1 with h | h
      · have : interpR (a :: b :: s) =ᶠ[𝓝 x] ramp a b := by
          filter_upwards [Iio_mem_nhds h] with z hz
          rw [interpR, if_neg (not_le.2 hz)]
        exact ((ramp_continuous a b).continuousAt.congr this.symm).continuousWithinAt
      · refine (ih (List.pairwise_cons.1 hs).2).congr (fun z hz => ?_) ?_
        · rw [interpR, if_pos (h.trans hz)]
        · rw [interpR, if_pos h]

/-- the limit from the left at a node is the value of the first node with this abscissa -/
theorem interpR_edge (pre : List (ℝ × ℝ)) (c : ℝ × ℝ) (post : List (ℝ × ℝ))
    (hs : (pre ++ c :: post).Pairwise fun p q => p.1 ≤ q.1) (hlt : ∀ p ∈ pre, p.1 < c.1) :
    Tendsto (interpR (pre ++ c :: post)) (𝓝[<] c.1) (𝓝 c.2) := by
  induction pre with
  | nil =>
    refine tendsto_const_nhds.congr' ?_
    filter_upwards [self_mem_nhdsWithin] with z hz
    exact (interpR_left hs (Or.inl hz)).symm
  | cons a pre ih =>
    have hac := hlt a (by simp)
    cases pre with
    | nil =>
      have h1 : Tendsto (ramp a c) (𝓝[<] c.1) (𝓝 c.2) := by
        have := (ramp_continuous a c).tendsto c.1
        rw [ramp_right hac] at this
        exact this.mono_left nhdsWithin_le_nhds
      refine h1.congr' ?_
      filter_upwards [self_mem_nhdsWithin] with z hz
      simp only [List.cons_append, List.nil_append]
      rw [interpR, if_neg (not_le.2 hz)]
    | cons b pre =>
      have hb := hlt b (by simp)
      refine (ih (List.pairwise_cons.1 hs).2 fun p hp => hlt p (List.mem_cons_of_mem _ hp)).congr' ?_
      filter_upwards [nhdsWithin_le_nhds (Ioi_mem_nhds hb)] with z hz
      simp only [List.cons_append]
      rw [interpR, if_pos (le_of_lt hz)]

/-- the interpolation is continuous where at most one node has this abscissa -/
theorem interpR_continuousAt (s : List (ℝ × ℝ)) (hs : s.Pairwise fun p q => p.1 ≤ q.1) (x : ℝ)
    (hx : ∀ pre c mid d post, s ≠ pre ++ c :: mid ++ d :: post ∨ c.1 ≠ x ∨ d.1 ≠ x) :
    ContinuousAt (interpR s) x := by
  induction s with
  | nil => exact continuousAt_const
  | cons a s ih =>
    cases s with
    | nil => exact continuousAt_const
    | cons b s =>
      have hs' := (List.pairwise_cons.1 hs).2
      have hih := ih hs' fun pre c mid d post => by
        rcases hx (a :: pre) c mid d post with h | h
        · left; rintro e; exact h (by rw [e]; simp)
        · exact Or.inr h
      rcases lt_trichotomy x b.1 with h | h | h
      · have : interpR (a :: b :: s) =ᶠ[𝓝 x] ramp a b := by
          filter_upwards [Iio_mem_nhds h] with z hz
          rw [interpR, if_neg (not_le.2 hz)]
        exact (ramp_continuous a b).continuousAt.congr this.symm
      · have hab : a.1 < b.1 := by
          refine lt_of_le_of_ne ((List.pairwise_cons.1 hs).1 b (by simp)) fun e => ?_
          rcases hx [] a [] b s with h' | h' | h'
          · exact h' rfl
          · exact h' (e.trans h.symm)
          · exact h' h.symm
        have hb : interpR (b :: s) x = b.2 := by
          refine interpR_left hs' (Or.inr ⟨h, fun p hp e => ?_⟩)
          obtain ⟨mid, post, e'⟩ := List.append_of_mem hp
          rcases hx [a] b mid p post with h' | h' | h'
          · exact h' (by rw [e']; simp)
          · exact h' h.symm
          · exact h' e
        rw [continuousAt_iff_continuous_left'_right']
        have hval : interpR (a :: b :: s) x = b.2 := by rw [interpR, if_pos h.symm.le, hb]
        refine ⟨?_, (interpR_right _ hs x).mono Ioi_subset_Ici_self⟩
        have := interpR_edge [a] b s hs (by simpa using hab)
        rw [ContinuousWithinAt, hval, h]
        exact this
      · refine hih.congr ?_
        filter_upwards [Ioi_mem_nhds h] with z hz
        rw [interpR, if_pos (le_of_lt hz)]

/-- the nodes as pairs of numbers -/
noncomputable def nodesR (t : Table) : List (ℝ × ℝ) := t.map fun r => (Real.logb 10 r.1, Real.logb 10 r.2)

theorem nodes_eq_map (t : Table) : nodes t = (nodesR t).map fun p => (p.1, Fl.fin p.2) := by
  simp [nodes, nodesR]

theorem npInterp_interpR (a : ℝ × ℝ) (s : List (ℝ × ℝ)) (hs : (a :: s).Pairwise fun p q => p.1 ≤ q.1) {x : ℝ}
    (hx : a.1 ≤ x) : npInterp ((a :: s).map fun p => (p.1, Fl.fin p.2)) x = .fin (interpR (a :: s) x) := by
  induction s generalizing a with
  | nil => rfl
  | cons b s ih =>
    simp only [List.map_cons, npInterp, interpR] at *
    by_cases h : b.1 ≤ x
    · rw [if_pos h, if_pos h]
      exact ih b (List.pairwise_cons.1 hs).2 h
    · rw [if_neg h, if_neg h]
      by_cases e : x = a.1
      · rw [if_pos e, ramp_left e.le]
      · rw [if_neg e, lerp, ramp, max_eq_left hx]

theorem interpR_above (s : List (ℝ × ℝ)) {b : ℝ × ℝ} (hb : s.getLast? = some b) {x : ℝ} (hx : ∀ p ∈ s, p.1 < x) :
    interpR s x = b.2 := by
  induction s with
  | nil => simp at hb
  | cons a s ih =>
    cases s with
    | nil => simp at hb; rw [interpR, hb]
    | cons c s =>
      rw [interpR, if_pos (hx c (by simp)).le]
      exact ih (by simpa using hb) fun p hp => hx p (List.mem_cons_of_mem _ hp)

theorem nodesR_sorted {t : Table} (ht : PosTable t) (hs : SortedTable t) :
    (nodesR t).Pairwise fun p q => p.1 ≤ q.1 := by
  refine List.pairwise_map.2 (List.Pairwise.imp_of_mem ?_ hs)
  intro a b ha _ hab
  exact logb_le (ht.2 a ha).1 hab

/-- the value at a positive energy, as a power of ten of the interpolated exponent -/
theorem call_interpR {t : Table} (ht : PosTable t) (hs : SortedTable t) {E : ℝ} (hE : 0 < E) :
    HasValue t E ((10 : ℝ) ^ interpR (nodesR t) (Real.logb 10 E)) := by
  obtain ⟨a, b, ha, hb, hc⟩ := xrmacCall_eq ht hE
  have hsn := nodesR_sorted ht hs
  have hsn' : (nodes t).Pairwise fun p q => p.1 ≤ q.1 := by
    rw [nodes_eq_map]; exact List.pairwise_map.2 hsn
  rw [HasValue, hc]
  obtain ⟨s, rfl⟩ : ∃ s, t = a :: s := by
    cases t with
    | nil => simp at ha
    | cons c s => simp at ha; exact ⟨s, by rw [ha]⟩
  have hl : (nodesR (a :: s)).getLast? = some (Real.logb 10 b.1, Real.logb 10 b.2) := by
    rw [nodesR, List.getLast?_map, hb]; rfl
  have hl' : (nodes (a :: s)).getLast? = some (Real.logb 10 b.1, .fin (Real.logb 10 b.2)) := by
    rw [nodes, List.getLast?_map, hb]; rfl
  have hh : (nodes (a :: s)).head? = some (Real.logb 10 a.1, .fin (Real.logb 10 a.2)) := rfl
  simp only [interp1d, sortNodes_of_sorted hsn', hh, hl']
  set x := Real.logb 10 E
  by_cases h1 : x < Real.logb 10 a.1
  · rw [if_pos h1]
    have : interpR (nodesR (a :: s)) x = Real.logb 10 a.2 := interpR_left (a := (Real.logb 10 a.1, Real.logb 10 a.2)) hsn (Or.inl h1)
    rw [this]; rfl
  · rw [if_neg h1]
    by_cases h2 : Real.logb 10 b.1 < x
    · rw [if_pos h2, interpR_above _ hl]
      · rfl
      · intro p hp
        refine lt_of_le_of_lt ?_ h2
        have hbm : ∀ q ∈ a :: s, q.1 ≤ b.1 := by
          intro q hq
          obtain ⟨init, e⟩ := List.getLast?_eq_some_iff.1 hb
          rw [e] at hs hq
          rcases List.mem_append.1 hq with hq | hq
          · exact (List.pairwise_append.1 hs).2.2 q hq b (by simp)
          · rw [List.mem_singleton.1 hq]
        obtain ⟨q, hq, rfl⟩ := List.mem_map.1 hp
        exact logb_le (ht.2 q hq).1 (hbm q hq)
    · rw [if_neg h2, nodes_eq_map, nodesR, List.map_cons, npInterp_interpR _ _ hsn (not_lt.1 h1)]
      rfl

end Ries
