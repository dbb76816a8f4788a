import Verif.Lemmas.Xrmac

/-!
# C48 – C51: interpolation of tabulated cross sections
-/

namespace Ries

/-- a table with an absorption edge at energy 2 -/
def exTable : Table := [(1, 8), (2, 4), (2, 9), (3, 1)]

theorem exTable_pos : PosTable exTable := by
  refine ⟨by simp [exTable], ?_⟩
  intro r hr
  simp only [exTable, List.mem_cons, List.not_mem_nil, or_false] at hr
  rcases hr with rfl | rfl | rfl | rfl <;> norm_num

theorem exTable_sorted : SortedTable exTable := by
  simp only [SortedTable, exTable]
  norm_num

/-- C48: at every tabulated energy the cross section has the tabulated value; at an energy that
occurs several times (absorption edge), the value of the last row with this energy.  The rows may be
in any order. -/
theorem C48_nodes {t : Table} (ht : PosTable t) {E y : ℝ} (pre post : Table)
    (h : t = pre ++ (E, y) :: post) (hpost : ∀ r ∈ post, r.1 ≠ E) : HasValue t E y := by
  have hmem : (E, y) ∈ t := by simp [h]
  have hpos := ht.2 _ hmem
  simp only at hpos
  obtain ⟨a, b, -, -, hc⟩ := xrmacCall_eq ht hpos.1
  have hnode : (Real.logb 10 E, Fl.fin (Real.logb 10 y)) ∈ nodes t :=
    List.mem_map.2 ⟨_, hmem, rfl⟩
  rw [HasValue, hc, interp1d_inside hnode hnode le_rfl le_rfl]
  have hn : nodes t = nodes pre ++ (Real.logb 10 E, Fl.fin (Real.logb 10 y)) :: nodes post := by
    simp [h, nodes]
  rw [hn, npInterp_sort_at]
  · simp [flPow10, pow_logb hpos.2]
  · intro p hp
    obtain ⟨r, hr, rfl⟩ := List.mem_map.1 hp
    exact fun he => hpost r hr (logb_inj (ht.2 r (by simp [h, hr])).1 hpos.1 he)

example : HasValue exTable 2 9 :=
  C48_nodes exTable_pos [(1, 8), (2, 4)] [(3, 1)] rfl (by simp)

/-- The interpolated value between two neighbouring rows. -/
theorem C49_power_law {t : Table} (ht : PosTable t) (hs : SortedTable t) {E E0 E1 y0 y1 : ℝ}
    (pre post : Table) (h : t = pre ++ (E0, y0) :: (E1, y1) :: post) (h0 : E0 < E) (h1 : E < E1) :
    HasValue t E (y0 * (E / E0) ^ (Real.log (y1 / y0) / Real.log (E1 / E0))) := by
  have m0 : (E0, y0) ∈ t := by simp [h]
  have m1 : (E1, y1) ∈ t := by simp [h]
  have p0 := ht.2 _ m0
  have p1 := ht.2 _ m1
  simp only at p0 p1
  have hE : 0 < E := p0.1.trans h0
  obtain ⟨a, b, -, -, hc⟩ := xrmacCall_eq ht hE
  have l0 := logb_lt p0.1 h0
  have l1 := logb_lt hE h1
  rw [HasValue, hc, interp1d_inside (t := nodes t) (a := (Real.logb 10 E0, .fin (Real.logb 10 y0)))
    (b := (Real.logb 10 E1, .fin (Real.logb 10 y1))) (List.mem_map.2 ⟨_, m0, rfl⟩)
    (List.mem_map.2 ⟨_, m1, rfl⟩) l0.le l1.le]
  have hn : nodes t = nodes pre ++ (Real.logb 10 E0, Fl.fin (Real.logb 10 y0)) ::
      (Real.logb 10 E1, Fl.fin (Real.logb 10 y1)) :: nodes post := by
    simp [h, nodes]
  have hsort : (nodes t).Pairwise fun a b => a.1 ≤ b.1 := by
    unfold nodes
    rw [List.pairwise_map]
    exact List.Pairwise.imp_of_mem (fun ha _ hab => logb_le (ht.2 _ ha).1 hab) hs
  rw [sortNodes_of_sorted hsort, hn, npInterp_between _ _ ?_ l0 l1]
  · simp only [lerp, flPow10]
    congr 2
    rw [Real.rpow_add (by norm_num), pow_logb p0.2, mul_comm]
    congr 1
    have e10 : Real.log 10 ≠ 0 := (Real.log_pos (by norm_num)).ne'
    have hd : Real.log E1 - Real.log E0 ≠ 0 := by
      have := Real.log_lt_log p0.1 (h0.trans h1)
      linarith
    have hEE : 0 < E / E0 := div_pos hE p0.1
    rw [Real.rpow_def_of_pos hEE, Real.rpow_def_of_pos (by norm_num : (0 : ℝ) < 10),
      Real.log_div p1.2.ne' p0.2.ne', Real.log_div p1.1.ne' p0.1.ne', Real.log_div hE.ne' p0.1.ne']
    congr 1
    simp only [Real.logb]
    field_simp
  · intro p hp
    obtain ⟨r, hr, rfl⟩ := List.mem_map.1 hp
    have hrE : r.1 ≤ E0 := by
      rw [h, SortedTable, List.pairwise_append] at hs
      exact hs.2.2 r hr (E0, y0) (by simp)
    exact logb_le (ht.2 r (by simp [h, hr])).1 (hrE.trans h0.le)

/-- C49: between two neighbouring rows with different energies the value lies between the two
tabulated values. -/
theorem C49_between {t : Table} (ht : PosTable t) (hs : SortedTable t) {E E0 E1 y0 y1 : ℝ}
    (pre post : Table) (h : t = pre ++ (E0, y0) :: (E1, y1) :: post) (h0 : E0 < E) (h1 : E < E1) :
    ∃ v, HasValue t E v ∧ min y0 y1 ≤ v ∧ v ≤ max y0 y1 := by
  refine ⟨_, C49_power_law ht hs pre post h h0 h1, ?_⟩
  have p0 := ht.2 (E0, y0) (by simp [h])
  have p1 := ht.2 (E1, y1) (by simp [h])
  simp only at p0 p1
  have hE : 0 < E := p0.1.trans h0
  -- as a weighted geometric mean
  set s := Real.log (E / E0) / Real.log (E1 / E0) with hs'
  have q0 : 0 < Real.log (E / E0) := Real.log_pos ((one_lt_div p0.1).2 h0)
  have q1 : Real.log (E / E0) < Real.log (E1 / E0) :=
    Real.log_lt_log (div_pos hE p0.1) (by gcongr; exact p0.1)
  have s0 : 0 ≤ s := div_nonneg q0.le (q0.trans q1).le
  have s1 : s ≤ 1 := (div_le_one (q0.trans q1)).2 q1.le
  have e : y0 * (E / E0) ^ (Real.log (y1 / y0) / Real.log (E1 / E0)) =
      Real.exp ((1 - s) * Real.log y0 + s * Real.log y1) := by
    rw [Real.rpow_def_of_pos (div_pos hE p0.1)]
    nth_rewrite 1 [← Real.exp_log p0.2]
    rw [← Real.exp_add, Real.log_div p1.2.ne' p0.2.ne']
    congr 1
    rw [hs']
    have := (q0.trans q1).ne'
    field_simp
    ring
  rw [e]
  constructor
  · rw [← Real.exp_log (lt_min p0.2 p1.2)]
    refine Real.exp_le_exp.2 ?_
    have a1 : Real.log (min y0 y1) ≤ Real.log y0 := Real.log_le_log (lt_min p0.2 p1.2) (min_le_left _ _)
    have a2 : Real.log (min y0 y1) ≤ Real.log y1 := Real.log_le_log (lt_min p0.2 p1.2) (min_le_right _ _)
    nlinarith
  · rw [← Real.exp_log (lt_max_of_lt_left p0.2 : 0 < max y0 y1)]
    refine Real.exp_le_exp.2 ?_
    have a1 : Real.log y0 ≤ Real.log (max y0 y1) := Real.log_le_log p0.2 (le_max_left _ _)
    have a2 : Real.log y1 ≤ Real.log (max y0 y1) := Real.log_le_log p1.2 (le_max_right _ _)
    nlinarith

example : ∃ v, HasValue exTable (5 / 2) v ∧ min 9 1 ≤ v ∧ v ≤ max 9 1 :=
  C49_between exTable_pos exTable_sorted [(1, 8), (2, 4)] [] rfl (by norm_num) (by norm_num)

/-- C49: for every table and every nonnegative energy, inside or outside the table, the result is a
positive number between the smallest and the largest tabulated value. -/
theorem C49_positive {t : Table} (ht : PosTable t) {E : ℝ} (hE : 0 ≤ E) {lo hi : ℝ} (hlo : 0 < lo)
    (hb : ∀ r ∈ t, lo ≤ r.2 ∧ r.2 ≤ hi) : ∃ v, HasValue t E v ∧ lo ≤ v ∧ v ≤ hi ∧ 0 < v := by
  rcases hE.eq_or_lt with rfl | hE
  · obtain ⟨p, hp⟩ : ∃ p, t.head? = some p := by
      cases h' : t with
      | nil => exact absurd h' ht.1
      | cons p s => exact ⟨p, rfl⟩
    have pm := List.mem_of_mem_head? hp
    exact ⟨p.2, call_zero ht hp, (hb p pm).1, (hb p pm).2, (ht.2 p pm).2⟩
  obtain ⟨a, b, ha, hbb, hc⟩ := xrmacCall_eq ht hE
  have am := List.mem_of_mem_head? ha
  have bm := List.mem_of_getLast? hbb
  have hhi : 0 < hi := hlo.trans_le ((hb a am).1.trans (hb a am).2)
  have hnb : ∀ r ∈ t, Real.logb 10 lo ≤ Real.logb 10 r.2 ∧ Real.logb 10 r.2 ≤ Real.logb 10 hi :=
    fun r hr => ⟨logb_le hlo (hb r hr).1, logb_le (ht.2 r hr).2 (hb r hr).2⟩
  obtain ⟨v, hv, h1, h2⟩ := interp1d_bounds (t := nodes t) (x := Real.logb 10 E)
    (lo := Real.logb 10 lo) (hi := Real.logb 10 hi) (by simp [nodes, ht.1])
    (fun p hp => by
      obtain ⟨r, hr, rfl⟩ := List.mem_map.1 hp
      exact ⟨_, rfl, hnb r hr⟩) (hnb a am) (hnb b bm)
  refine ⟨(10 : ℝ) ^ v, by rw [HasValue, hc, hv]; rfl, ?_, ?_, by positivity⟩
  · rw [← pow_logb hlo]
    exact Real.rpow_le_rpow_of_exponent_le (by norm_num) h1
  · rw [← pow_logb hhi]
    exact Real.rpow_le_rpow_of_exponent_le (by norm_num) h2

example : ∃ v, HasValue exTable 1000 v ∧ 1 ≤ v ∧ v ≤ 9 ∧ 0 < v :=
  C49_positive exTable_pos (by norm_num) one_pos (by
    intro r hr
    simp only [exTable, List.mem_cons, List.not_mem_nil, or_false] at hr
    rcases hr with rfl | rfl | rfl | rfl <;> norm_num)

/-! ## C50 -/

/-- C50, proved part: for tables sorted by energy.  Below the table the result is the value of the
first row, which is the value at the smallest energy unless there is an absorption edge exactly at
that energy; above the table it is the value at the largest energy.
Missing for the full statement: unsorted tables (which the interpolation sorts) and an edge at the
smallest energy, where the statement is false (`C50_refuted`). -/
theorem C50_partial {t : Table} (ht : PosTable t) (hs : SortedTable t) {E : ℝ} (hE : 0 ≤ E) :
    (∀ E0 y0 rest, t = (E0, y0) :: rest → (∀ r ∈ rest, r.1 ≠ E0) → E < E0 →
      HasValue t E0 y0 ∧ HasValue t E y0) ∧
    (∀ E1 y1 init, t = init ++ [(E1, y1)] → E1 < E → HasValue t E1 y1 ∧ HasValue t E y1) := by
  constructor
  · rintro E0 y0 rest rfl hne hlt
    refine ⟨C48_nodes ht [] rest rfl hne, call_below ht hE (a := (E0, y0)) rfl ?_⟩
    intro r hr
    rcases List.mem_cons.1 hr with rfl | hr
    · exact hlt
    · exact hlt.trans_le ((List.pairwise_cons.1 hs).1 r hr)
  · rintro E1 y1 init rfl hlt
    refine ⟨C48_nodes ht init [] rfl (by simp), call_above ht (b := (E1, y1)) (by simp) ?_⟩
    intro r hr
    rcases List.mem_append.1 hr with hr | hr
    · exact ((List.pairwise_append.1 hs).2.2 r hr (E1, y1) (by simp)).trans_lt hlt
    · rw [List.mem_singleton.1 hr]
      exact hlt

example : HasValue exTable (1 / 2) 8 ∧ HasValue exTable 7 1 :=
  ⟨((C50_partial exTable_pos exTable_sorted (by norm_num)).1 1 8 _ rfl (by norm_num)
    (by norm_num)).2,
   ((C50_partial exTable_pos exTable_sorted (by norm_num)).2 3 1 [(1, 8), (2, 4), (2, 9)] rfl
    (by norm_num)).2⟩

/-- C50 is false of the code: the fill values are taken from the first and the last row of the
table as given, although the interpolation sorts the rows. -/
theorem C50_refuted :
    ¬ ∀ (t : Table), PosTable t → ∀ E0 y0 E, (∃ y, (E0, y) ∈ t) → (∀ r ∈ t, E0 ≤ r.1) →
      HasValue t E0 y0 → 0 ≤ E → E < E0 → HasValue t E y0 := by
  intro hall
  have ht : PosTable [(2, 5), (1, 7)] := by
    refine ⟨by simp, fun r hr => ?_⟩
    simp only [List.mem_cons, List.not_mem_nil, or_false] at hr
    rcases hr with rfl | rfl <;> norm_num
  have h1 := hall _ ht 1 7 (1 / 2) ⟨7, by simp⟩ (by simp) (C48_nodes ht [(2, 5)] [] rfl (by simp))
    (by norm_num) (by norm_num)
  have h2 : HasValue [(2, 5), (1, 7)] (1 / 2) 5 :=
    call_below ht (a := (2, 5)) (by norm_num) rfl (by
      intro r hr
      simp only [List.mem_cons, List.not_mem_nil, or_false] at hr
      rcases hr with rfl | rfl <;> norm_num)
  rw [HasValue] at h1 h2
  rw [h1] at h2
  norm_num at h2

/-! ## C51 -/

/-- C51: multiplying all values of a table by a nonnegative unit factor multiplies the cross section
by that factor at every nonnegative energy, inside and outside the table. -/
theorem C51_value_units {t : Table} (ht : PosTable t) {f : ℝ} (hf : 0 ≤ f) {E : ℝ} (hE : 0 ≤ E) :
    ∃ v, HasValue t E v ∧ HasValue (scaleValues f t) E (f * v) := by
  rcases hE.eq_or_lt with rfl | hE
  · obtain ⟨p, hp⟩ : ∃ p, t.head? = some p := by
      cases h' : t with
      | nil => exact absurd h' ht.1
      | cons p s => exact ⟨p, rfl⟩
    refine ⟨p.2, call_zero ht hp, ?_⟩
    rcases hf.lt_or_eq with hf | rfl
    · refine call_zero (t := scaleValues f t) (a := (p.1, f * p.2)) ⟨?_, ?_⟩
        (by simp [scaleValues, hp])
      · simp [scaleValues, ht.1]
      · rintro _ hr
        obtain ⟨q, hq, rfl⟩ := List.mem_map.1 hr
        exact ⟨(ht.2 q hq).1, mul_pos hf (ht.2 q hq).2⟩
    · obtain ⟨q, hq⟩ : ∃ q, t.getLast? = some q := ⟨_, List.getLast?_eq_getLast_of_ne_nil ht.1⟩
      have e1 : (scaleValues 0 t).head? = some (p.1, 0) := by simp [scaleValues, hp]
      have e2 : (scaleValues 0 t).getLast? = some (q.1, 0) := by simp [scaleValues, hq]
      simp [HasValue, xrmacCall, interpolateLogLog, e1, e2, Except.map, flLog10, interp1dFl,
        flPow10]
  have hlE : flLog10 E = .fin (Real.logb 10 E) := by simp [flLog10, hE]
  obtain ⟨a, b, ha, hb, hc⟩ := xrmacCall_eq ht hE
  have am := List.mem_of_mem_head? ha
  have bm := List.mem_of_getLast? hb
  have ha' : (scaleValues f t).head? = some (a.1, f * a.2) := by simp [scaleValues, ha]
  have hb' : (scaleValues f t).getLast? = some (b.1, f * b.2) := by simp [scaleValues, hb]
  obtain ⟨lo, hi, hlo, hbnd⟩ : ∃ lo hi : ℝ, 0 < lo ∧ ∀ r ∈ t, lo ≤ r.2 ∧ r.2 ≤ hi := by
    clear hc ha hb am bm ha' hb'
    obtain ⟨-, ht⟩ := ht
    induction t with
    | nil => exact ⟨1, 1, one_pos, by simp⟩
    | cons r t ih =>
      obtain ⟨lo, hi, h1, h2⟩ := ih fun q hq => ht q (by simp [hq])
      refine ⟨min lo r.2, max hi r.2, lt_min h1 (ht r (by simp)).2, fun q hq => ?_⟩
      rcases List.mem_cons.1 hq with rfl | hq
      · exact ⟨min_le_right _ _, le_max_right _ _⟩
      · exact ⟨(min_le_left _ _).trans (h2 q hq).1, (h2 q hq).2.trans (le_max_left _ _)⟩
  obtain ⟨v, hv, -⟩ := C49_positive ht hE.le hlo hbnd
  refine ⟨v, hv, ?_⟩
  rw [HasValue, hc] at hv
  rcases hf.lt_or_eq with hf | rfl
  · have hn : ((scaleValues f t).map fun r => (Real.logb 10 r.1, flLog10 r.2)) =
        (nodes t).map (shiftNode 0 (Real.logb 10 f)) := by
      simp only [scaleValues, nodes, List.map_map]
      refine List.map_congr_left fun r hr => ?_
      have := (ht.2 r hr).2
      simp only [Function.comp, shiftNode, add_zero, flLog10]
      rw [if_pos (by positivity), Real.logb_mul hf.ne' this.ne', add_comm]
    have hA : ∀ r ∈ t, flLog10 (f * r.2) = shiftFl (Real.logb 10 f) (.fin (Real.logb 10 r.2)) := by
      intro r hr
      have := (ht.2 r hr).2
      rw [flLog10, if_pos (by positivity), Real.logb_mul hf.ne' this.ne', add_comm]
      rfl
    rw [HasValue, xrmacCall, interpolateLogLog, ha', hb', hlE]
    simp only [Except.map, hn, hA a am, hA b bm, interp1dFl]
    have key := interp1d_shift 0 (Real.logb 10 f) (nodes t) (.fin (Real.logb 10 a.2))
      (.fin (Real.logb 10 b.2)) (Real.logb 10 E)
    rw [add_zero] at key
    rw [key]
    generalize hw : interp1d (nodes t) (.fin (Real.logb 10 a.2)) (.fin (Real.logb 10 b.2))
      (Real.logb 10 E) = w at hv
    obtain ⟨y, rfl, -⟩ : ∃ y, w = .fin y ∧ True := by
      obtain ⟨y, h1, -⟩ := interp1d_bounds (t := nodes t) (x := Real.logb 10 E)
        (lo := Real.logb 10 lo) (hi := Real.logb 10 hi) (by simp [nodes, ht.1])
        (fun p hp => by
          obtain ⟨r, hr, rfl⟩ := List.mem_map.1 hp
          exact ⟨_, rfl, logb_le hlo (hbnd r hr).1, logb_le (ht.2 r hr).2 (hbnd r hr).2⟩)
        (A := Real.logb 10 a.2) (B := Real.logb 10 b.2)
        ⟨logb_le hlo (hbnd a am).1, logb_le (ht.2 a am).2 (hbnd a am).2⟩
        ⟨logb_le hlo (hbnd b bm).1, logb_le (ht.2 b bm).2 (hbnd b bm).2⟩
      exact ⟨y, hw ▸ h1, trivial⟩
    rw [flPow10_shift hf]
    have : (10 : ℝ) ^ y = v := by simpa [flPow10] using hv
    rw [this]
  · have hall : ∀ p ∈ (scaleValues 0 t).map (fun r => (Real.logb 10 r.1, flLog10 r.2)),
        p.2 = .ninf := by
      intro p hp
      simp only [scaleValues, List.map_map, List.mem_map, Function.comp] at hp
      obtain ⟨r, -, rfl⟩ := hp
      simp [flLog10]
    rw [HasValue, xrmacCall, interpolateLogLog, ha', hb', hlE]
    have h0 : flLog10 (0 * a.2) = .ninf ∧ flLog10 (0 * b.2) = .ninf := by simp [flLog10]
    simp only [Except.map, h0.1, h0.2, interp1dFl]
    have : interp1d ((scaleValues 0 t).map fun r => (Real.logb 10 r.1, flLog10 r.2)) .ninf .ninf
        (Real.logb 10 E) = .ninf := by
      set N := (scaleValues 0 t).map fun r => (Real.logb 10 r.1, flLog10 r.2) with hN
      have hne : sortNodes N ≠ [] := by
        have hm : (Real.logb 10 a.1, flLog10 (0 * a.2)) ∈ N :=
          List.mem_map.2 ⟨(a.1, 0 * a.2), List.mem_map.2 ⟨a, am, rfl⟩, rfl⟩
        exact List.ne_nil_of_mem (mem_sortNodes.2 hm)
      obtain ⟨p, hp⟩ : ∃ p, (sortNodes N).head? = some p := by
        cases h : sortNodes N with
        | nil => exact absurd h hne
        | cons p s => exact ⟨p, rfl⟩
      obtain ⟨q, hq⟩ : ∃ q, (sortNodes N).getLast? = some q :=
        ⟨_, List.getLast?_eq_getLast_of_ne_nil hne⟩
      simp only [interp1d, hp, hq]
      split_ifs
      · rfl
      · rfl
      · exact npInterp_ninf (fun r hr => hall r (mem_sortNodes.1 hr)) hne _
    rw [this]
    simp [flPow10]

example : ∃ v, HasValue exTable (5 / 2) v ∧ HasValue (scaleValues 1e24 exTable) (5 / 2) (1e24 * v) :=
  C51_value_units exTable_pos (by norm_num) (by norm_num)

/-- C51, energies: multiplying all energies of a table by a positive unit factor gives the same
cross section at the converted energy. -/
theorem C51_energy_units {t : Table} (ht : PosTable t) {f : ℝ} (hf : 0 < f) {E v : ℝ} (hE : 0 < E)
    (hv : HasValue t E v) : HasValue (scaleEnergies f t) (f * E) v := by
  obtain ⟨a, b, ha, hb, hc⟩ := xrmacCall_eq ht hE
  have hlE : flLog10 (f * E) = .fin (Real.logb 10 (f * E)) := by simp [flLog10, mul_pos hf hE]
  have am := List.mem_of_mem_head? ha
  have bm := List.mem_of_getLast? hb
  have ha' : (scaleEnergies f t).head? = some (f * a.1, a.2) := by simp [scaleEnergies, ha]
  have hb' : (scaleEnergies f t).getLast? = some (f * b.1, b.2) := by simp [scaleEnergies, hb]
  have hn : ((scaleEnergies f t).map fun r => (Real.logb 10 r.1, flLog10 r.2)) =
      (nodes t).map (shiftNode (Real.logb 10 f) 0) := by
    simp only [scaleEnergies, nodes, List.map_map]
    refine List.map_congr_left fun r hr => ?_
    have := (ht.2 r hr)
    simp only [Function.comp, shiftNode, add_zero, flLog10]
    rw [if_pos this.2, Real.logb_mul hf.ne' this.1.ne', add_comm]
  have hA : ∀ r ∈ t, flLog10 r.2 = shiftFl 0 (.fin (Real.logb 10 r.2)) := by
    intro r hr
    simp [flLog10, (ht.2 r hr).2, shiftFl]
  have hs0 : ∀ w : Fl, shiftFl 0 w = w := by
    intro w
    cases w <;> simp [shiftFl]
  rw [HasValue, hc] at hv
  rw [HasValue, xrmacCall, interpolateLogLog, ha', hb', hlE]
  simp only [Except.map, hn, hA a am, hA b bm, interp1dFl]
  rw [Real.logb_mul hf.ne' hE.ne', add_comm, interp1d_shift, hs0]
  exact hv

example : HasValue (scaleEnergies 1e6 exTable) (1e6 * 2) 9 :=
  C51_energy_units exTable_pos (by norm_num) (by norm_num)
    (C48_nodes exTable_pos [(1, 8), (2, 4)] [(3, 1)] rfl (by simp))

end Ries
