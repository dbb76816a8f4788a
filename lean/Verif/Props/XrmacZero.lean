import Verif.Lemmas.XrmacZero
import Verif.Spec.Xrmac

/-!
# C177: tables that contain the energy zero

A user may want to tell the value at zero energy by a row.  The interpolation is done with the logarithms of the energies.
-/

namespace Ries

/-- a table that begins with rows for the energy zero -/
structure ZeroTable (z : Table) (y : ℝ) (t p : Table) : Prop where
  rows : t = z ++ (0, y) :: p
  zero : ∀ r ∈ z, r.1 = 0
  pos : PosTable p
  sorted : SortedTable p

/-- C177: for tables without the energy zero, whatever the values and the order of the rows, the interpolation in IEEE arithmetic is
the one that the other properties are about. -/
theorem C177_positive_energies {t : Table} (ht : ∀ r ∈ t, 0 < r.1) (E : ℝ) : xrmacCallZ t E = xrmacCall t E := by
  unfold xrmacCallZ xrmacCall
  congr 1
  cases t with
  | nil => rfl
  | cons a t =>
    unfold interpolateLogLogZ interpolateLogLog
    obtain ⟨q, hq⟩ : ∃ q, (a :: t).getLast? = some q := ⟨_, List.getLast?_eq_getLast_of_ne_nil (by simp)⟩
    simp only [List.head?_cons, hq]
    have e : ((a :: t).map fun r => (flLog10 r.1, flLog10 r.2)) =
        ((a :: t).map fun r => (Real.logb 10 r.1, flLog10 r.2)).map fun p => (Fl.fin p.1, p.2) := by
      rw [List.map_map]
      refine List.map_congr_left fun r hr => ?_
      simp [flLog10, ht r hr]
    rw [e, interp1dZ_fin (by simp) ?_ _ _ (flLog10_ne_pinf E)]
    intro p hp
    obtain ⟨r, -, rfl⟩ := List.mem_map.1 hp
    exact flLog10_ne_pinf _

section
variable {z t p : Table} {y E : ℝ}

theorem ZeroTable.call (h : ZeroTable z y t p) (hE : 0 ≤ E) : ∃ a b, t.head? = some a ∧ p.getLast? = some b ∧
    xrmacCallZ t E = .ok (flPow10 (if flLog10 b.1 < flLog10 E then flLog10 b.2
      else npInterpFl ((.ninf, flLog10 y) :: p.map fun r => (flLog10 r.1, flLog10 r.2)) (flLog10 E))) := by
  obtain ⟨b, hb⟩ : ∃ b, p.getLast? = some b := ⟨_, List.getLast?_eq_getLast_of_ne_nil h.pos.1⟩
  have hb' : t.getLast? = some b := by
    rw [h.rows, List.getLast?_append, List.getLast?_cons, hb]
    rfl
  have hne : t ≠ [] := by rw [h.rows]; simp
  obtain ⟨a, ha⟩ : ∃ a, t.head? = some a := ⟨_, List.head?_eq_some_head hne⟩
  have l0 : flLog10 0 = .ninf := by simp [flLog10]
  have ha0 : a.1 = 0 := by
    have : a = (0, y) ∨ a ∈ z := by
      cases z with
      | nil =>
        rw [h.rows] at ha
        exact .inl (Option.some.inj ha).symm
      | cons c z =>
        rw [h.rows] at ha
        exact .inr (by rw [← Option.some.inj ha]; simp)
    rcases this with rfl | h'
    · rfl
    · exact h.zero a h'
  refine ⟨a, b, ha, hb, ?_⟩
  have hs : (t.map fun r => (flLog10 r.1, flLog10 r.2)).Pairwise fun a b => a.1 ≤ b.1 := by
    rw [List.pairwise_map, h.rows, List.pairwise_append, List.pairwise_cons]
    refine ⟨?_, ⟨fun r _ => ?_, ?_⟩, fun r hr s _ => ?_⟩
    · refine List.pairwise_of_forall_mem_list fun r hr s _ => ?_
      rw [h.zero r hr, l0]
      exact Fl.ninf_le _
    · rw [l0]
      exact Fl.ninf_le _
    · refine h.sorted.imp_of_mem fun {r s} hr hs hrs => ?_
      have h1 := (h.pos.2 r hr).1
      have h2 := (h.pos.2 s hs).1
      simp only [flLog10, h1, h2, if_true, Fl.fin_le_fin]
      exact logb_le h1 hrs
    · rw [h.zero r hr, l0]
      exact Fl.ninf_le _
  have hx : flLog10 E ≠ .nan := flLog10_ne_nan hE
  simp only [xrmacCallZ, interpolateLogLogZ, ha, hb', interp1dZ, sortNodesFl_of_sorted hs, List.head?_map, List.getLast?_map,
    Option.map_some, Except.map, if_neg hx, ha0, l0]
  rw [if_neg (not_lt.2 (Fl.ninf_le _))]
  congr 2
  split_ifs
  · rfl
  · rw [h.rows, List.map_append, List.map_cons, l0]
    exact npInterpFl_skip _ (fun q hq => by
      obtain ⟨r, hr, rfl⟩ := List.mem_map.1 hq
      simp only [h.zero r hr, l0]) _ _ _

/-- C177: the value at zero energy is that of the last row for this energy. -/
theorem C177_at_zero (h : ZeroTable z y t p) (hy : 0 ≤ y) : xrmacCallZ t 0 = .ok (.fin y) := by
  obtain ⟨a, b, -, hb, hc⟩ := h.call le_rfl
  have l0 : flLog10 0 = .ninf := by simp [flLog10]
  rw [hc, l0, if_neg (not_lt.2 (Fl.ninf_le _))]
  obtain ⟨q, s, rfl⟩ : ∃ q s, p = q :: s := List.exists_cons_of_ne_nil h.pos.1
  have hq := (h.pos.2 q (by simp)).1
  have : ¬ Fl.fin (Real.logb 10 q.1) ≤ Fl.ninf := not_le.2 (Fl.ninf_lt_fin _)
  simp only [List.map_cons, npInterpFl, flLog10, hq, if_true, this, if_false]
  rcases hy.lt_or_eq with hy | rfl
  · simp [hy, flPow10, pow_logb hy]
  · simp [flPow10]

/-- C177, proved part: if the value at zero energy is positive, the cross section at every positive energy is a positive number between
the neighbouring values of the table: that of the table without the rows for zero energy, i.e. constant below its first energy.
Missing for the full statement: the value zero at zero energy (`C177_refuted`). -/
theorem C177_partial (h : ZeroTable z y t p) (hy : 0 < y) (hE : 0 < E) : xrmacCallZ t E = xrmacCall p E := by
  obtain ⟨a, b, -, hb, hc⟩ := h.call hE.le
  obtain ⟨q, s, hp⟩ : ∃ q s, p = q :: s := List.exists_cons_of_ne_nil h.pos.1
  have hq := h.pos.2 q (by simp [hp])
  have hbp := h.pos.2 b (List.mem_of_getLast? hb)
  have hlE : flLog10 E = .fin (Real.logb 10 E) := by simp [flLog10, hE]
  have hlq : flLog10 q.1 = .fin (Real.logb 10 q.1) := by simp [flLog10, hq.1]
  by_cases hEq : E < q.1
  · have hall : ∀ r ∈ p, E < r.1 := by
      intro r hr
      rw [hp] at hr
      rcases List.mem_cons.1 hr with rfl | hr
      · exact hEq
      · have hs := h.sorted
        rw [hp] at hs
        exact hEq.trans_le ((List.pairwise_cons.1 hs).1 r hr)
    rw [call_below h.pos hE.le (a := q) (by simp [hp]) hall, hc]
    have hbE : ¬ flLog10 b.1 < flLog10 E := by
      rw [hlE]
      simp only [flLog10, hbp.1, if_true, Fl.fin_lt_fin, not_lt]
      exact (logb_lt hE (hall b (List.mem_of_getLast? hb))).le
    rw [if_neg hbE, hp, List.map_cons, hlE, hlq]
    have h1 : ¬ Fl.fin (Real.logb 10 q.1) ≤ Fl.fin (Real.logb 10 E) := by
      simpa using logb_lt hE hEq
    simp only [npInterpFl, h1, if_false, reduceCtorEq]
    have e1 : flLog10 y = .fin (Real.logb 10 y) := by simp [flLog10, hy]
    have e2 : flLog10 q.2 = .fin (Real.logb 10 q.2) := by simp [flLog10, hq.2]
    rw [e1, e2, lerpFl_ninf]
    simp [flPow10, pow_logb hq.2]
  · rw [← C177_positive_energies fun r hr => (h.pos.2 r hr).1, hc]
    have hs : (p.map fun r => (flLog10 r.1, flLog10 r.2)).Pairwise fun a b => a.1 ≤ b.1 := by
      rw [List.pairwise_map]
      refine h.sorted.imp_of_mem fun {r s} hr hs hrs => ?_
      have h1 := (h.pos.2 r hr).1
      have h2 := (h.pos.2 s hs).1
      simp only [flLog10, h1, h2, if_true, Fl.fin_le_fin]
      exact logb_le h1 hrs
    have hqE : Fl.fin (Real.logb 10 q.1) ≤ Fl.fin (Real.logb 10 E) := by
      simpa using logb_le hq.1 (not_lt.1 hEq)
    have hq' : p.head? = some q := by simp [hp]
    simp only [xrmacCallZ, interpolateLogLogZ, hb, hq', interp1dZ, sortNodesFl_of_sorted hs, List.head?_map, List.getLast?_map,
      Option.map_some, Except.map, hlE, hlq, reduceCtorEq, if_false, not_lt.2 hqE]
    congr 2
    split_ifs
    · rfl
    · rw [hp, List.map_cons, hlq]
      simp only [npInterpFl, hqE, if_true]

/-- C177: if the value at zero energy is zero, the result is nan at every energy between zero and the first other energy. -/
theorem C177_zero_value (h : ZeroTable z 0 t p) (hE : 0 < E) (hlt : ∀ r ∈ p, E < r.1) : xrmacCallZ t E = .ok .nan := by
  obtain ⟨a, b, -, hb, hc⟩ := h.call hE.le
  obtain ⟨q, s, hp⟩ : ∃ q s, p = q :: s := List.exists_cons_of_ne_nil h.pos.1
  have hq := h.pos.2 q (by simp [hp])
  have hbm := List.mem_of_getLast? hb
  have hlE : flLog10 E = .fin (Real.logb 10 E) := by simp [flLog10, hE]
  have hlq : flLog10 q.1 = .fin (Real.logb 10 q.1) := by simp [flLog10, hq.1]
  have hbE : ¬ flLog10 b.1 < flLog10 E := by
    rw [hlE]
    simp only [flLog10, (h.pos.2 b hbm).1, if_true, Fl.fin_lt_fin, not_lt]
    exact (logb_lt hE (hlt b hbm)).le
  have h1 : ¬ Fl.fin (Real.logb 10 q.1) ≤ Fl.fin (Real.logb 10 E) := by
    simpa using logb_lt hE (hlt q (by simp [hp]))
  have e2 : flLog10 q.2 = .fin (Real.logb 10 q.2) := by simp [flLog10, hq.2]
  have e1 : flLog10 0 = .ninf := by simp [flLog10]
  rw [hc, if_neg hbE, hp, List.map_cons, hlE, hlq, e1, e2]
  simp only [npInterpFl, h1, if_false, reduceCtorEq]
  rw [lerpFl_ninf_ninf]
  rfl

end

theorem exZeroTable (y : ℝ) : ZeroTable [] y [(0, y), (1, 5), (2, 4)] [(1, 5), (2, 4)] := by
  refine ⟨rfl, by simp, ⟨by simp, fun r hr => ?_⟩, ?_⟩
  · simp only [List.mem_cons, List.not_mem_nil, or_false] at hr
    rcases hr with rfl | rfl <;> norm_num
  · norm_num [SortedTable]

/-- C177 is false: a cross section that is tabulated as 0 at 0 and as 5 at 1 MeV is nan at 0.5 MeV. -/
theorem C177_refuted : xrmacCallZ [(0, 0), (1, 5), (2, 4)] 0.5 = .ok .nan ∧
    xrmacCallZ [(0, 0), (1, 5), (2, 4)] 0 = .ok (.fin 0) ∧ xrmacCallZ [(0, 0), (1, 5), (2, 4)] 1 = .ok (.fin 5) := by
  refine ⟨C177_zero_value (exZeroTable 0) (by norm_num) (by norm_num), C177_at_zero (exZeroTable 0) le_rfl, ?_⟩
  obtain ⟨a, b, -, hb, hc⟩ := (exZeroTable 0).call (zero_le_one' ℝ)
  obtain rfl : (2, 4) = b := by simpa using hb
  have h2 : ¬ flLog10 2 < flLog10 1 := by
    simp only [flLog10]
    norm_num
    exact Real.logb_nonneg (by norm_num) (by norm_num)
  have h4 : ¬ Fl.fin (Real.logb 10 2) ≤ Fl.fin (Real.logb 10 1) := by
    simpa using Real.logb_pos (by norm_num : (1 : ℝ) < 10) (by norm_num : (1 : ℝ) < 2)
  have l1 : flLog10 1 = .fin (Real.logb 10 1) := by simp [flLog10]
  have l2 : flLog10 2 = .fin (Real.logb 10 2) := by simp [flLog10]
  have l5 : flLog10 5 = .fin (Real.logb 10 5) := by simp [flLog10]
  rw [hc, if_neg h2]
  simp only [List.map_cons, List.map_nil, npInterpFl, l1, l2, le_refl, if_true, h4, if_false, l5, flPow10,
    pow_logb (by norm_num : (0 : ℝ) < 5)]

end Ries
