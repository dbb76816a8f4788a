import Verif.Props.XrmacEdges
import Verif.Lemmas.ShippedXrmacEdges

/-! # Property C183: the attenuation above the last absorption edge -/

open Filter Topology Set

namespace Ries

open Text

set_option maxRecDepth 100000

/-- an affine transformation of the nodes transforms the interpolation between them -/
theorem interpR_affine (k s : ℝ) {x : ℝ} (a : ℝ × ℝ) (r : List (ℝ × ℝ))
    (ha : a.1 ≤ x) (hl : ∃ p ∈ a :: r, x ≤ p.1) (hs : (a :: r).Pairwise fun p q => p.1 ≤ q.1) :
    interpR ((a :: r).map fun p => (p.1, k * p.1 + s * p.2)) x = k * x + s * interpR (a :: r) x := by
  induction r generalizing a with
  | nil =>
    obtain ⟨p, hp, hl⟩ := hl
    obtain rfl : p = a := by simpa using hp
    obtain rfl : p.1 = x := le_antisymm ha hl
    simp [interpR]
  | cons b r ih =>
    obtain ⟨-, hs'⟩ := List.pairwise_cons.1 hs
    simp only [List.map_cons, interpR]
    by_cases hb : b.1 ≤ x
    · rw [if_pos hb, if_pos hb]
      refine ih b hb ?_ hs'
      obtain ⟨p, hp, hl⟩ := hl
      rcases List.mem_cons.1 hp with rfl | hp
      · exact ⟨b, by simp, by linarith [(List.pairwise_cons.1 hs).1 b (by simp)]⟩
      · exact ⟨p, hp, hl⟩
    · rw [if_neg hb, if_neg hb, ramp, ramp]
      push Not at hb
      simp only [max_eq_left ha]
      have : b.1 - a.1 ≠ 0 := by linarith
      field_simp
      ring

/-- C183: multiplying the rows of a sorted table by a power of their energies, and raising their values to a power, does the
same to the interpolated values at every energy between the first and the last row. -/
theorem C183_power {t : Table} (ht : PosTable t) (hs : SortedTable t) (k s : ℝ) {E v : ℝ}
    (h1 : ∃ r ∈ t, r.1 ≤ E) (h2 : ∃ r ∈ t, E ≤ r.1) (hv : HasValue t E v) :
    HasValue (t.map fun r => (r.1, r.1 ^ k * r.2 ^ s)) E (E ^ k * v ^ s) := by
  obtain ⟨c, hc, hcE⟩ := h1
  have hE : 0 < E := (ht.2 c hc).1.trans_le hcE
  have ht' : PosTable (t.map fun r => (r.1, r.1 ^ k * r.2 ^ s)) := by
    refine ⟨by simpa using ht.1, fun r hr => ?_⟩
    obtain ⟨q, hq, rfl⟩ := List.mem_map.1 hr
    have := ht.2 q hq
    exact ⟨this.1, mul_pos (Real.rpow_pos_of_pos this.1 _) (Real.rpow_pos_of_pos this.2 _)⟩
  have hs' : SortedTable (t.map fun r => (r.1, r.1 ^ k * r.2 ^ s)) := List.pairwise_map.2 hs
  have e1 : v = (10 : ℝ) ^ interpR (nodesR t) (Real.logb 10 E) := by
    have := hv.symm.trans (call_interpR ht hs hE)
    simpa using this
  have e2 := call_interpR ht' hs' hE
  have e3 : nodesR (t.map fun r => (r.1, r.1 ^ k * r.2 ^ s)) = (nodesR t).map fun p => (p.1, k * p.1 + s * p.2) := by
    unfold nodesR
    rw [List.map_map, List.map_map]
    refine List.map_congr_left fun r hr => ?_
    have := ht.2 r hr
    simp only [Function.comp_apply, Prod.mk.injEq, true_and]
    rw [Real.logb_mul (Real.rpow_pos_of_pos this.1 _).ne' (Real.rpow_pos_of_pos this.2 _).ne',
      Real.logb_rpow_eq_mul_logb_of_pos this.1, Real.logb_rpow_eq_mul_logb_of_pos this.2]
  obtain ⟨d, hd, hdE⟩ := h2
  obtain ⟨a, r, rfl⟩ : ∃ a r, t = a :: r := by
    cases t with
    | nil => simp at hc
    | cons a r => exact ⟨a, r, rfl⟩
  have ha : a.1 ≤ E := by
    rcases List.mem_cons.1 hc with rfl | h
    · exact hcE
    · exact ((List.pairwise_cons.1 hs).1 c h).trans hcE
  have e4 : interpR ((nodesR (a :: r)).map fun p => (p.1, k * p.1 + s * p.2)) (Real.logb 10 E) =
      k * Real.logb 10 E + s * interpR (nodesR (a :: r)) (Real.logb 10 E) :=
    interpR_affine k s _ (nodesR r) (logb_le (ht.2 a (by simp)).1 ha)
      ⟨(Real.logb 10 d.1, Real.logb 10 d.2),
        List.mem_map_of_mem (f := fun r : ℝ × ℝ => (Real.logb 10 r.1, Real.logb 10 r.2)) hd, logb_le hE hdE⟩
      (nodesR_sorted ht hs)
  rw [e3, e4] at e2
  have e5 : E ^ k * v ^ s = (10 : ℝ) ^ (k * Real.logb 10 E + s * interpR (nodesR (a :: r)) (Real.logb 10 E)) := by
    rw [Real.rpow_add (by norm_num), e1, mul_comm k, mul_comm s, Real.rpow_mul (by norm_num), Real.rpow_mul (by norm_num),
      Real.rpow_logb (by norm_num) (by norm_num) hE]
  rw [e5]
  exact e2

/-- The hypotheses of `C183_power` are met by a table with an edge at 2, where the value is 9: multiplied by the energy and
squared, the value is 162. -/
example : HasValue ([(1, 8), (2, 4), (2, 9), (3, 1)].map fun r => (r.1, r.1 ^ (1 : ℝ) * r.2 ^ (2 : ℝ))) 2
    ((2 : ℝ) ^ (1 : ℝ) * (9 : ℝ) ^ (2 : ℝ)) :=
  C183_power exTable_pos exTable_sorted 1 2 ⟨(1, 8), .head _, by norm_num⟩
    ⟨(3, 1), .tail _ (.tail _ (.tail _ (.head _))), by norm_num⟩
    (C48_nodes exTable_pos [(1, 8), (2, 4)] [(3, 1)] rfl (by simp))

/-- the energy found by `lastEdge` is an edge -/
theorem lastEdge_edge (ls : List Line) (h : lastEdge ls ≠ 0) :
    AbsorptionEdge (ls.map fun l => ((l.energy.value : ℝ), (l.mu.value : ℝ))) (lastEdge ls) := by
  induction ls with
  | nil => simp [lastEdge] at h
  | cons p ls ih =>
    cases ls with
    | nil => simp [lastEdge] at h
    | cons q ls =>
      rw [lastEdge] at h ⊢
      by_cases h0 : lastEdge (q :: ls) = 0
      · rw [if_pos h0] at h ⊢
        by_cases hpq : p.energy.value = q.energy.value
        · rw [if_pos hpq] at h ⊢
          exact ⟨[], _, [], _, _, rfl, rfl, by rw [hpq]⟩
        · rw [if_neg hpq] at h
          exact absurd rfl h
      · rw [if_neg h0]
        obtain ⟨pre, c, mid, d, post, e, hc, hd⟩ := ih h0
        exact ⟨_ :: pre, c, mid, d, post, by rw [List.map_cons, e]; rfl, hc, hd⟩

/-- rows beyond the energy found by `lastEdge` are no edges -/
theorem lastEdge_max (ls : List Line) (hs : SortedTable (ls.map fun l => ((l.energy.value : ℝ), (l.mu.value : ℝ))))
    (h0 : ∀ l ∈ ls, 0 < l.energy.value) {E : ℝ}
    (h : AbsorptionEdge (ls.map fun l => ((l.energy.value : ℝ), (l.mu.value : ℝ))) E) : E ≤ lastEdge ls := by
  induction ls with
  | nil =>
    obtain ⟨pre, c, mid, d, post, e, -, -⟩ := h
    simp at e
  | cons p ls ih =>
    cases ls with
    | nil =>
      obtain ⟨pre, c, mid, d, post, e, -, -⟩ := h
      have := congrArg List.length e
      simp at this
      omega
    | cons q ls =>
      obtain ⟨s1, s2⟩ := List.pairwise_cons.1 hs
      have ih' := fun h => ih s2 (fun l hl => h0 l (List.mem_cons_of_mem _ hl)) h
      obtain ⟨pre, c, mid, d, post, e, hc, hd⟩ := h
      have hpos : lastEdge (q :: ls) ≠ 0 → (q.energy.value : ℝ) ≤ lastEdge (q :: ls) := fun hne => by
        obtain ⟨pre, c, mid, d, post, e, hc, hd⟩ := lastEdge_edge _ hne
        rw [← hc]
        have hcm : c ∈ (q :: ls).map fun l => ((l.energy.value : ℝ), (l.mu.value : ℝ)) := by rw [e]; simp
        rcases List.mem_cons.1 hcm with rfl | hcm
        · exact le_rfl
        · exact (List.pairwise_cons.1 s2).1 c hcm
      cases pre with
      | cons x pre =>
        have h' := ih' ⟨pre, c, mid, d, post, by simpa using (List.cons.inj e).2, hc, hd⟩
        rw [lastEdge]
        by_cases hz : lastEdge (q :: ls) = 0
        · have hcm : c ∈ (q :: ls).map fun l => ((l.energy.value : ℝ), (l.mu.value : ℝ)) := by
            rw [show _ = _ from (List.cons.inj e).2]; simp
          obtain ⟨l, hl, rfl⟩ := List.mem_map.1 hcm
          have : (0 : ℝ) < l.energy.value := Rat.cast_pos.2 (h0 l (List.mem_cons_of_mem _ hl))
          rw [hz] at h'
          simp only at hc
          rw [← hc] at h'
          norm_num at h'
          exact absurd (h0 l (List.mem_cons_of_mem _ hl)) (not_lt.2 h')
        · rw [if_neg hz]; exact h'
      | nil =>
        have hcp : c = ((p.energy.value : ℝ), (p.mu.value : ℝ)) := (List.cons.inj e).1.symm
        have hrest : (q :: ls).map (fun l => ((l.energy.value : ℝ), (l.mu.value : ℝ))) = mid ++ d :: post :=
          (List.cons.inj e).2
        have hqd : (q.energy.value : ℝ) ≤ d.1 := by
          have hdm : d ∈ (q :: ls).map fun l => ((l.energy.value : ℝ), (l.mu.value : ℝ)) := by rw [hrest]; simp
          rcases List.mem_cons.1 hdm with rfl | hdm
          · exact le_rfl
          · exact (List.pairwise_cons.1 s2).1 d hdm
        have hpq := s1 ((q.energy.value : ℝ), (q.mu.value : ℝ)) (by simp)
        simp only at hpq
        have hpE : (p.energy.value : ℝ) = E := by rw [← hc, hcp]
        rw [lastEdge]
        by_cases hz : lastEdge (q :: ls) = 0
        · rw [if_pos hz, if_pos (Rat.cast_injective (α := ℝ) (by linarith)), hpE]
        · rw [if_neg hz]
          linarith [hpos hz]

/-- no shipped table has an edge above 0.115606 MeV -/
theorem shipped_last {Z : ℕ} (hZ : Z ∈ List.range' 1 92) {E : ℝ} (h : AbsorptionEdge (tableOf Z) E) : E ≤ 0.115606 := by
  have hc := shipped_edges hZ
  have hs := tableOf_sorted hZ
  have hp := tableOf_pos hZ
  unfold checkEdges at hc
  unfold tableOf at h hs hp
  generalize xrmacLines Z = ls at h hs hp hc
  simp only [Bool.and_eq_true, decide_eq_true_eq] at hc
  have h1 := lastEdge_max _ hs (fun l hl => Rat.cast_pos (K := ℝ).1 (hp.2 _ (List.mem_map_of_mem hl)).1) h
  have h2 := (Rat.cast_le (K := ℝ)).2 hc.2
  norm_num at h2 ⊢
  linarith

/-- the rows of the shipped tables above the last edge -/
theorem shipped_above {Z : ℕ} (hZ : Z ∈ List.range' 1 92) {A : ℝ} (hA : 0 < A)
    (he : ∀ E, AbsorptionEdge (tableOf Z) E → E ≤ A) :
    (Z ≠ 69 → DecreasingRows A 4 (tableOf Z)) ∧
    (Z ≠ 24 → (tableOf Z).IsChain fun p q => q.1 ≤ A ∨ (p.1 < q.1 ∧
      p.2 ^ 5 * p.1 ^ (if Z = 42 then 25 else 16) < q.2 ^ 5 * q.1 ^ (if Z = 42 then 25 else 16))) ∧
    (Z ≠ 69 → (tableOf Z).IsChain fun p q => q.1 ≤ A ∨ (p.1 < q.1 ∧ q.2 ^ 3 * p.1 < p.2 ^ 3 * q.1)) := by
  have h := shipped_edges hZ
  unfold checkEdges at h
  unfold tableOf at he ⊢
  generalize xrmacLines Z = ls at h he ⊢
  simp only [Bool.and_eq_true, Bool.or_eq_true, decide_eq_true_eq, beq_iff_eq] at h
  obtain ⟨⟨⟨h1, h2⟩, h3⟩, -⟩ := h
  have hle : (lastEdge ls : ℝ) ≤ A := by
    by_cases h0 : lastEdge ls = 0
    · rw [h0]; simpa using hA.le
    · exact he _ (lastEdge_edge ls h0)
  refine ⟨fun hz => ?_, fun hz => ?_, fun hz => ?_⟩
  · refine (List.isChain_map _).2 ((h1.resolve_left hz).imp fun p q h => ?_)
    rcases h with h | h
    · exact .inl ((Rat.cast_le.2 h).trans hle)
    · refine .inr ?_
      have : (4 : ℝ) = ((4 : ℚ) : ℝ) := by norm_num
      rw [this]
      simpa only [Rat.cast_le, Rat.cast_lt] using h
  · refine (List.isChain_map _).2 ((h2.resolve_left hz).imp fun p q h => ?_)
    rcases h with h | h
    · exact .inl ((Rat.cast_le.2 h).trans hle)
    · refine .inr ⟨Rat.cast_lt.2 h.1, ?_⟩
      have := h.2
      generalize (if Z = 42 then 25 else 16 : ℕ) = n at this ⊢
      simp only
      exact_mod_cast this
  · refine (List.isChain_map _).2 ((h3.resolve_left hz).imp fun p q h => ?_)
    rcases h with h | h
    · exact .inl ((Rat.cast_le.2 h).trans hle)
    · exact .inr ⟨Rat.cast_lt.2 h.1, by simp only; exact_mod_cast h.2⟩

/-- C183 for tables: if the rows beyond the energy `A` fall less than with the power `-n/5` of the energy, then so do the
interpolated values. -/
theorem C183_fall {t : Table} (ht : PosTable t) (hs : SortedTable t) {A : ℝ} {n : ℕ}
    (hc : t.IsChain fun p q => q.1 ≤ A ∨ (p.1 < q.1 ∧ p.2 ^ 5 * p.1 ^ n < q.2 ^ 5 * q.1 ^ n))
    (hA : ∃ r, t.head? = some r ∧ r.1 ≤ A) {B : ℝ} (hB : ∃ r ∈ t, B ≤ r.1) {E1 E2 v1 v2 : ℝ} (h1 : A ≤ E1)
    (h12 : E1 < E2) (h2 : E2 ≤ B) (hv1 : HasValue t E1 v1) (hv2 : HasValue t E2 v2) :
    v1 ^ 5 * E1 ^ n < v2 ^ 5 * E2 ^ n := by
  obtain ⟨a, ha, haA⟩ := hA
  have ham := List.mem_of_mem_head? ha
  have ha0 : 0 < a.1 := (ht.2 a ham).1
  have hE1 : 0 < E1 := by linarith
  have hE2 : 0 < E2 := by linarith
  obtain ⟨b, hb, hbB⟩ := hB
  have p1 := C183_power ht hs (-n : ℝ) (-5) ⟨a, ham, haA.trans h1⟩ ⟨b, hb, by linarith⟩ hv1
  have p2 := C183_power ht hs (-n : ℝ) (-5) ⟨a, ham, by linarith⟩ ⟨b, hb, by linarith⟩ hv2
  have ht' : PosTable (t.map fun r => (r.1, r.1 ^ (-n : ℝ) * r.2 ^ (-5 : ℝ))) := by
    refine ⟨by simpa using ht.1, fun r hr => ?_⟩
    obtain ⟨q, hq, rfl⟩ := List.mem_map.1 hr
    have := ht.2 q hq
    exact ⟨this.1, mul_pos (Real.rpow_pos_of_pos this.1 _) (Real.rpow_pos_of_pos this.2 _)⟩
  have key : ∀ x y : ℝ, 0 < x → 0 < y → x ^ (-n : ℝ) * y ^ (-5 : ℝ) = (y ^ 5 * x ^ n)⁻¹ := by
    intro x y hx hy
    rw [Real.rpow_neg hx.le, Real.rpow_neg hy.le, Real.rpow_natCast, show (5 : ℝ) = ((5 : ℕ) : ℝ) by norm_num,
      Real.rpow_natCast, mul_inv, mul_comm]
  have hd : DecreasingRows A B (t.map fun r => (r.1, r.1 ^ (-n : ℝ) * r.2 ^ (-5 : ℝ))) := by
    refine (List.isChain_map _).2 (List.IsChain.imp_of_mem_imp ?_ hc)
    intro p q hp hq h
    have p0 := ht.2 p hp
    have q0 := ht.2 q hq
    rcases h with h | h
    · exact .inl h
    · refine .inr (.inr ⟨h.1, ?_⟩)
      simp only
      rw [key _ _ p0.1 p0.2, key _ _ q0.1 q0.2]
      exact inv_strictAnti₀ (mul_pos (pow_pos p0.2 _) (pow_pos p0.1 _)) h.2
  have hv : ∀ {E v}, 0 < E → HasValue t E v → 0 < v := fun hE hv => by
    have := hv.symm.trans (call_interpR ht hs hE)
    simp only [Except.ok.injEq, Fl.fin.injEq] at this
    rw [this]
    exact Real.rpow_pos_of_pos (by norm_num) _
  have := C166_decreasing ht' (List.pairwise_map.2 hs) hd
    ⟨(a.1, a.1 ^ (-n : ℝ) * a.2 ^ (-5 : ℝ)), by rw [List.head?_map, ha, Option.map_some], haA⟩
    ⟨_, List.mem_map_of_mem hb, hbB⟩ h1 h12 h2 p1 p2
  rw [key _ _ hE1 (hv hE1 hv1), key _ _ hE2 (hv hE2 hv2)] at this
  exact (inv_lt_inv₀ (mul_pos (pow_pos (hv hE2 hv2) _) (pow_pos hE2 _))
    (mul_pos (pow_pos (hv hE1 hv1) _) (pow_pos hE1 _))).1 this

/-- C183 for tables: if the rows beyond the energy `A` rise less than with the power `1/3` of the energy, then so do the
interpolated values. -/
theorem C183_rise {t : Table} (ht : PosTable t) (hs : SortedTable t) {A : ℝ}
    (hc : t.IsChain fun p q => q.1 ≤ A ∨ (p.1 < q.1 ∧ q.2 ^ 3 * p.1 < p.2 ^ 3 * q.1))
    (hA : ∃ r, t.head? = some r ∧ r.1 ≤ A) {B : ℝ} (hB : ∃ r ∈ t, B ≤ r.1) {E1 E2 v1 v2 : ℝ} (h1 : A ≤ E1)
    (h12 : E1 < E2) (h2 : E2 ≤ B) (hv1 : HasValue t E1 v1) (hv2 : HasValue t E2 v2) :
    v2 ^ 3 * E1 < v1 ^ 3 * E2 := by
  obtain ⟨a, ha, haA⟩ := hA
  have ham := List.mem_of_mem_head? ha
  have ha0 : 0 < a.1 := (ht.2 a ham).1
  have hE1 : 0 < E1 := by linarith
  have hE2 : 0 < E2 := by linarith
  obtain ⟨b, hb, hbB⟩ := hB
  have p1 := C183_power ht hs (-1 : ℝ) 3 ⟨a, ham, haA.trans h1⟩ ⟨b, hb, by linarith⟩ hv1
  have p2 := C183_power ht hs (-1 : ℝ) 3 ⟨a, ham, by linarith⟩ ⟨b, hb, by linarith⟩ hv2
  have ht' : PosTable (t.map fun r => (r.1, r.1 ^ (-1 : ℝ) * r.2 ^ (3 : ℝ))) := by
    refine ⟨by simpa using ht.1, fun r hr => ?_⟩
    obtain ⟨q, hq, rfl⟩ := List.mem_map.1 hr
    have := ht.2 q hq
    exact ⟨this.1, mul_pos (Real.rpow_pos_of_pos this.1 _) (Real.rpow_pos_of_pos this.2 _)⟩
  have key : ∀ x y : ℝ, x ^ (-1 : ℝ) * y ^ (3 : ℝ) = y ^ 3 / x := by
    intro x y
    rw [Real.rpow_neg_one, show (3 : ℝ) = ((3 : ℕ) : ℝ) by norm_num, Real.rpow_natCast]
    ring
  have hd : DecreasingRows A B (t.map fun r => (r.1, r.1 ^ (-1 : ℝ) * r.2 ^ (3 : ℝ))) := by
    refine (List.isChain_map _).2 (List.IsChain.imp_of_mem_imp ?_ hc)
    intro p q hp hq h
    rcases h with h | h
    · exact .inl h
    · refine .inr (.inr ⟨h.1, ?_⟩)
      simp only
      rw [key, key, div_lt_div_iff₀ (ht.2 q hq).1 (ht.2 p hp).1]
      exact h.2
  have := C166_decreasing ht' (List.pairwise_map.2 hs) hd
    ⟨(a.1, a.1 ^ (-1 : ℝ) * a.2 ^ (3 : ℝ)), by rw [List.head?_map, ha, Option.map_some], haA⟩
    ⟨_, List.mem_map_of_mem hb, hbB⟩ h1 h12 h2 p1 p2
  rwa [key, key, div_lt_div_iff₀ hE2 hE1] at this

/-- The hypotheses of `C183_fall` and `C183_rise` are met by a table with an edge at 2: beyond it, the values fall less than
with the fifth power of the energy. -/
example : (List.IsChain (fun p q : ℝ × ℝ => q.1 ≤ 2 ∨ (p.1 < q.1 ∧ p.2 ^ 5 * p.1 ^ 25 < q.2 ^ 5 * q.1 ^ 25))
      [(1, 8), (2, 4), (2, 9), (3, 2)]) ∧
    (List.IsChain (fun p q : ℝ × ℝ => q.1 ≤ 2 ∨ (p.1 < q.1 ∧ q.2 ^ 3 * p.1 < p.2 ^ 3 * q.1))
      [(1, 8), (2, 4), (2, 9), (3, 2)]) := by
  constructor <;> norm_num

/-- the facts about the stored cross section per gram of an element -/
theorem stored_power {mu : ℝ} :
    ∃ st, importXrmac shippedNist.render shippedDensities.render xrmacText mu = .ok st ∧
      ∀ Z ∈ List.range' 1 92, ∃ (g : StoredXrmac) (f : ℝ → ℝ), dictGet (symbolOf Z) st.perGram = .ok g ∧
        (∀ E, 0 ≤ E → g.call E = .ok (.fin (f E)) ∧ HasValue (tableOf Z) E (f E)) ∧
        (∀ E, 0 < E → ¬ AbsorptionEdge (tableOf Z) E → ContinuousAt f E) ∧
        ∀ E, AbsorptionEdge (tableOf Z) E → ¬ ContinuousAt f E := by
  obtain ⟨syms, els, h1, h2⟩ := shipped_loopInput
  obtain ⟨st, h3, -, -, -, h5⟩ := moduleLoop_ok (mu := mu) h2
  refine ⟨st, importXrmac_ok h1 h3, fun Z hZ => ?_⟩
  obtain ⟨g, a, h6, h7, h8, h9, -⟩ := h5 Z hZ
  obtain ⟨rows, h10, h11⟩ := read_shipped hZ id
  obtain rfl := Except.ok.inj (h8.symm.trans h10)
  obtain ⟨-, -, r3, -, -⟩ := shipped_rows hZ
  obtain ⟨f, f1, f2, f3⟩ := C166_jump (tableOf_pos hZ) (tableOf_sorted hZ) r3
  refine ⟨g, f, h6, fun E hE => ⟨?_, f1 E hE⟩, f2, fun E hE hcont => ?_⟩
  · rw [StoredXrmac.call, h11]
    simpa only [id, Prod.mk.eta, List.map_id', HasValue] using f1 E hE
  · obtain ⟨l, hl, hlt⟩ := f3 E hE
    exact hlt.ne (tendsto_nhds_unique hl (hcont.tendsto.mono_left nhdsWithin_le_nhds))

/-- C183: beyond its last absorption edge, i.e. from an energy `A` on above which it has no discontinuity (0.115606 MeV is such
an energy for all elements), the attenuation coefficient of every element other than thulium decreases strictly with the energy up to 4 MeV, and up to 20 MeV it does not
rise by as much as the cube root of the energy.  In every element other than chromium and molybdenum it falls by less than
the power 16/5 of the energy, in molybdenum by less than the power 5. -/
theorem C183_partial {mu : ℝ} :
    ∃ st, importXrmac shippedNist.render shippedDensities.render xrmacText mu = .ok st ∧
      ∀ Z ∈ List.range' 1 92, ∃ (g : StoredXrmac) (f : ℝ → ℝ), dictGet (symbolOf Z) st.perGram = .ok g ∧
        (∀ E, 0 ≤ E → g.call E = .ok (.fin (f E))) ∧ (∀ E, 0.115606 < E → ContinuousAt f E) ∧
        ∀ A, 0.001 ≤ A → (∀ E, A < E → ContinuousAt f E) →
          (Z ≠ 69 → StrictAntiOn f (Icc A 4)) ∧
          ∀ E1 E2, A ≤ E1 → E1 < E2 → E2 ≤ 20 →
            (Z ≠ 24 → f E1 / f E2 < (E2 / E1) ^ (if Z = 42 then 5 else 16 / 5 : ℝ)) ∧
            (Z ≠ 69 → f E2 / f E1 < (E2 / E1) ^ (1 / 3 : ℝ)) := by
  obtain ⟨st, h1, h⟩ := stored_power (mu := mu)
  refine ⟨st, h1, fun Z hZ => ?_⟩
  obtain ⟨g, f, h2, h3, h4, h5⟩ := h Z hZ
  refine ⟨g, f, h2, fun E hE => (h3 E hE).1, fun E hE => h4 E (by linarith) fun he => not_le.2 hE (shipped_last hZ he),
    fun A hA hc => ?_⟩
  have hA0 : 0 < A := lt_of_lt_of_le (by norm_num) hA
  obtain ⟨r1, r2, r3⟩ := shipped_above hZ hA0 fun E hE => by
    by_contra hlt
    exact h5 E hE (hc E (not_le.1 hlt))
  obtain ⟨-, -, -, ⟨a1, ha1, ha2⟩, ⟨b1, hb1, hb2⟩⟩ := shipped_rows hZ
  have hp := tableOf_pos hZ
  have hs := tableOf_sorted hZ
  have ha : ∃ r, (tableOf Z).head? = some r ∧ r.1 ≤ A := ⟨a1, ha1, ha2 ▸ hA⟩
  have hb : ∀ B : ℝ, B ≤ 20 → ∃ r ∈ tableOf Z, B ≤ r.1 := fun B h => ⟨b1, hb1, hb2 ▸ h⟩
  have hf : ∀ E, 0 < E → 0 < f E := fun E hE => by
    have := (h3 E hE.le).2.symm.trans (call_interpR hp hs hE)
    simp only [Except.ok.injEq, Fl.fin.injEq] at this
    rw [this]
    exact Real.rpow_pos_of_pos (by norm_num) _
  refine ⟨fun hz x hx y hy hxy => ?_, fun E1 E2 l1 l2 l3 => ⟨fun hz => ?_, fun hz => ?_⟩⟩
  · exact C166_decreasing hp hs (r1 hz) ha (hb 4 (by norm_num)) hx.1 hxy hy.2
      (h3 x (hA0.le.trans hx.1)).2 (h3 y (hA0.le.trans hy.1)).2
  · have e1 : 0 < E1 := by linarith
    have e2 : 0 < E2 := by linarith
    have := C183_fall hp hs (r2 hz) ha (hb 20 le_rfl) l1 l2 l3 (h3 E1 e1.le).2 (h3 E2 e2.le).2
    have f1 := hf E1 e1
    have f2 := hf E2 e2
    have hn : (if Z = 42 then 5 else 16 / 5 : ℝ) = ((if Z = 42 then 25 else 16 : ℕ) : ℝ) / 5 := by
      split <;> norm_num
    rw [hn]
    generalize (if Z = 42 then 25 else 16 : ℕ) = n at this ⊢
    refine lt_of_pow_lt_pow_left₀ 5 (Real.rpow_nonneg (by positivity) _) ?_
    rw [← Real.rpow_natCast ((E2 / E1) ^ ((n : ℝ) / 5)), ← Real.rpow_mul (by positivity),
      show (n : ℝ) / 5 * (5 : ℕ) = n by push_cast; ring, Real.rpow_natCast, div_pow, div_pow,
      div_lt_div_iff₀ (by positivity) (by positivity)]
    linarith
  · have e1 : 0 < E1 := by linarith
    have e2 : 0 < E2 := by linarith
    have := C183_rise hp hs (r3 hz) ha (hb 20 le_rfl) l1 l2 l3 (h3 E1 e1.le).2 (h3 E2 e2.le).2
    have f1 := hf E1 e1
    have f2 := hf E2 e2
    refine lt_of_pow_lt_pow_left₀ 3 (Real.rpow_nonneg (by positivity) _) ?_
    rw [← Real.rpow_natCast ((E2 / E1) ^ (1 / 3 : ℝ)), ← Real.rpow_mul (by positivity),
      show (1 / 3 : ℝ) * (3 : ℕ) = 1 by push_cast; ring, Real.rpow_one, div_pow,
      div_lt_div_iff₀ (by positivity) (by positivity)]
    linarith

/-- the value at a row of a shipped table that is the last one of its energy -/
theorem shipped_node {Z : ℕ} (hZ : Z ∈ List.range' 1 92) {i : ℕ} {e m : ℚ}
    (h1 : ((xrmacLines Z)[i]?.map fun l => (l.energy.value, l.mu.value)) = some (e, m))
    (h2 : (((xrmacLines Z).drop (i + 1)).all fun l => decide (e < l.energy.value)) = true) :
    HasValue (tableOf Z) e m := by
  have hp := tableOf_pos hZ
  unfold tableOf at hp ⊢
  generalize xrmacLines Z = ls at h1 h2 hp ⊢
  obtain ⟨l, e1, e2⟩ := Option.map_eq_some_iff.1 h1
  obtain ⟨hi, e1⟩ := List.getElem?_eq_some_iff.1 e1
  obtain ⟨rfl, rfl⟩ := Prod.mk.inj e2
  refine C48_nodes hp ((ls.take i).map fun l => ((l.energy.value : ℝ), (l.mu.value : ℝ)))
    ((ls.drop (i + 1)).map fun l => ((l.energy.value : ℝ), (l.mu.value : ℝ))) ?_ ?_
  · rw [← List.map_cons (f := fun l : Line => ((l.energy.value : ℝ), (l.mu.value : ℝ))), ← List.map_append, ← e1,
      List.cons_getElem_drop_succ, List.take_append_drop]
  · intro r hr
    obtain ⟨l', hl', rfl⟩ := List.mem_map.1 hr
    have := List.all_eq_true.1 h2 l' hl'
    exact (Rat.cast_lt.2 (of_decide_eq_true this)).ne'

/-- C183 does not hold for thulium: its coefficient has no discontinuity above the K edge, 0.0593896 MeV, but rises from 12
at the edge to 14.09 at 0.06 MeV. -/
theorem C183_refuted {mu : ℝ} :
    ∃ st g, ∃ f : ℝ → ℝ, importXrmac shippedNist.render shippedDensities.render xrmacText mu = .ok st ∧
      dictGet (symbolOf 69) st.perGram = .ok g ∧ (∀ E, 0 ≤ E → g.call E = .ok (.fin (f E))) ∧
      (∀ E, 0.0593896 < E → ContinuousAt f E) ∧ f 0.0593896 = 12 ∧ f 0.06 = 14.09 := by
  obtain ⟨st, h1, h⟩ := stored_power (mu := mu)
  have hZ : 69 ∈ List.range' 1 92 := by decide
  obtain ⟨g, f, h2, h3, h4, -⟩ := h 69 hZ
  obtain ⟨⟨a1, a2⟩, ⟨b1, b2⟩, c⟩ := thulium_lines
  have v1 := shipped_node hZ a1 a2
  have v2 := shipped_node hZ b1 b2
  have w1 := (h3 _ (by norm_num : (0 : ℝ) ≤ ((0.0593896 : ℚ) : ℝ))).2.symm.trans v1
  have w2 := (h3 _ (by norm_num : (0 : ℝ) ≤ ((0.06 : ℚ) : ℝ))).2.symm.trans v2
  simp only [Except.ok.injEq, Fl.fin.injEq] at w1 w2
  refine ⟨st, g, f, h1, h2, fun E hE => (h3 E hE).1, fun E hE => h4 E (by linarith) fun he => ?_, ?_, ?_⟩
  · have hs := tableOf_sorted hZ
    have hp := tableOf_pos hZ
    unfold tableOf at he hs hp
    have := lastEdge_max _ hs (fun l hl => Rat.cast_pos (K := ℝ).1 (hp.2 _ (List.mem_map_of_mem hl)).1) he
    rw [c] at this
    norm_num at this hE
    linarith
  · norm_num at w1 ⊢; exact w1
  · norm_num at w2 ⊢; exact w2

/-- C183 does not hold for chromium: above the K edge, 0.0059892 MeV, where the coefficient has no discontinuity, it falls
from 597.7 to 516 while the energy grows to 0.006 MeV; this is more than the power 81 of the energy. -/
theorem C183_refuted_steep {mu : ℝ} :
    ∃ st g, ∃ f : ℝ → ℝ, importXrmac shippedNist.render shippedDensities.render xrmacText mu = .ok st ∧
      dictGet (symbolOf 24) st.perGram = .ok g ∧ (∀ E, 0 ≤ E → g.call E = .ok (.fin (f E))) ∧
      (∀ E, 0.0059892 < E → ContinuousAt f E) ∧ f 0.0059892 = 597.7 ∧ f 0.006 = 516 ∧
      (0.006 / 0.0059892 : ℝ) ^ 81 < f 0.0059892 / f 0.006 := by
  obtain ⟨st, h1, h⟩ := stored_power (mu := mu)
  have hZ : 24 ∈ List.range' 1 92 := by decide
  obtain ⟨g, f, h2, h3, h4, -⟩ := h 24 hZ
  obtain ⟨⟨a1, a2⟩, ⟨b1, b2⟩, c⟩ := chromium_lines
  have v1 := shipped_node hZ a1 a2
  have v2 := shipped_node hZ b1 b2
  have w1 := (h3 _ (by norm_num : (0 : ℝ) ≤ ((0.0059892 : ℚ) : ℝ))).2.symm.trans v1
  have w2 := (h3 _ (by norm_num : (0 : ℝ) ≤ ((0.006 : ℚ) : ℝ))).2.symm.trans v2
  simp only [Except.ok.injEq, Fl.fin.injEq] at w1 w2
  have u1 : f 0.0059892 = 597.7 := by norm_num at w1 ⊢; exact w1
  have u2 : f 0.006 = 516 := by norm_num at w2 ⊢; exact w2
  refine ⟨st, g, f, h1, h2, fun E hE => (h3 E hE).1, fun E hE => h4 E (by linarith) fun he => ?_, u1, u2, ?_⟩
  · have hs := tableOf_sorted hZ
    have hp := tableOf_pos hZ
    unfold tableOf at he hs hp
    have := lastEdge_max _ hs (fun l hl => Rat.cast_pos (K := ℝ).1 (hp.2 _ (List.mem_map_of_mem hl)).1) he
    rw [c] at this
    norm_num at this hE
    linarith
  · rw [u1, u2]
    norm_num

end Ries
