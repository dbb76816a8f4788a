import Verif.Spec.Xrmac
import Mathlib.Data.List.Basic
import Mathlib.Tactic.Linarith
import Mathlib.Tactic.FieldSimp
import Mathlib.Tactic.Ring

/-! # Lemmas on the interpolation of tables -/

namespace Ries

/-- the nodes of a table of positive values: logarithms of energy and value -/
noncomputable def nodes (t : Table) : List (ℝ × Fl) :=
  t.map fun r => (Real.logb 10 r.1, Fl.fin (Real.logb 10 r.2))

theorem nodes_eq {t : Table} (h : ∀ r ∈ t, 0 < r.1 ∧ 0 < r.2) :
    (t.map fun r => (Real.logb 10 r.1, flLog10 r.2)) = nodes t := by
  unfold nodes
  refine List.map_congr_left fun r hr => ?_
  simp [flLog10, (h r hr).2]

theorem npInterp_at {x : ℝ} {y : Fl} (pre post : List (ℝ × Fl)) (h1 : ∀ p ∈ pre, p.1 ≤ x)
    (h2 : ∀ p ∈ post, x < p.1) : npInterp (pre ++ (x, y) :: post) x = y := by
  induction pre with
  | nil =>
    cases post with
    | nil => rfl
    | cons q post =>
      have := h2 q (by simp)
      obtain ⟨q1, q2⟩ := q
      simp only [List.nil_append, npInterp]
      rw [if_neg (not_le.2 this), if_pos trivial]
  | cons p pre ih =>
    obtain ⟨p1, p2⟩ := p
    have ih := ih fun q hq => h1 q (by simp [hq])
    cases pre with
    | nil =>
      simp only [List.nil_append, List.cons_append, npInterp] at ih ⊢
      rw [if_pos le_rfl, ih]
    | cons q pre =>
      obtain ⟨q1, q2⟩ := q
      simp only [List.cons_append, npInterp] at ih ⊢
      have := h1 (q1, q2) (by simp)
      simp only at this
      rw [if_pos this]
      exact ih

theorem npInterp_between {x x0 x1 : ℝ} {y0 y1 : Fl} (pre post : List (ℝ × Fl))
    (h1 : ∀ p ∈ pre, p.1 ≤ x) (h2 : x0 < x) (h3 : x < x1) :
    npInterp (pre ++ (x0, y0) :: (x1, y1) :: post) x = lerp x0 y0 x1 y1 x := by
  induction pre with
  | nil =>
    simp only [List.nil_append, npInterp]
    rw [if_neg (not_le.2 h3), if_neg (ne_of_gt h2)]
  | cons p pre ih =>
    obtain ⟨p1, p2⟩ := p
    have ih := ih fun q hq => h1 q (by simp [hq])
    cases pre with
    | nil =>
      simp only [List.nil_append, List.cons_append, npInterp] at ih ⊢
      rw [if_pos h2.le]
      exact ih
    | cons q pre =>
      obtain ⟨q1, q2⟩ := q
      simp only [List.cons_append, npInterp] at ih ⊢
      have := h1 (q1, q2) (by simp)
      simp only at this
      rw [if_pos this]
      exact ih

theorem sortNodes_pairwise (t : List (ℝ × Fl)) : (sortNodes t).Pairwise fun a b => a.1 ≤ b.1 := by
  have := List.pairwise_mergeSort (le := fun a b : ℝ × Fl => decide (a.1 ≤ b.1))
    (fun a b c h1 h2 => by simp only [decide_eq_true_eq] at *; exact h1.trans h2)
    (fun a b => by
      simp only [Bool.or_eq_true, decide_eq_true_eq]
      exact le_total _ _) t
  exact this.imp fun h => by simpa using h

theorem sortNodes_of_sorted {t : List (ℝ × Fl)} (h : t.Pairwise fun a b => a.1 ≤ b.1) :
    sortNodes t = t :=
  List.mergeSort_of_pairwise (h.imp fun h => by simpa using h)

theorem mem_sortNodes {t : List (ℝ × Fl)} {a : ℝ × Fl} : a ∈ sortNodes t ↔ a ∈ t :=
  List.mem_mergeSort

/-- a sorted list splits at a value into smaller, equal and larger parts -/
theorem sorted_split (s : List (ℝ × Fl)) (h : s.Pairwise fun a b => a.1 ≤ b.1) (x : ℝ) :
    s = s.filter (fun a => decide (a.1 < x)) ++ (s.filter (fun a => decide (a.1 = x)) ++
      s.filter (fun a => decide (x < a.1))) := by
  induction s with
  | nil => rfl
  | cons a s ih =>
    rw [List.pairwise_cons] at h
    have ih := ih h.2
    rcases lt_trichotomy a.1 x with hx | hx | hx
    · have n1 : ¬ a.1 = x := hx.ne
      have n2 : ¬ x < a.1 := hx.le.not_gt
      simp only [List.filter_cons, hx, n1, n2, decide_true, decide_false, if_true,
        List.cons_append, Bool.false_eq_true, if_false]
      rw [← ih]
    · have n1 : ¬ a.1 < x := by rw [hx]; exact lt_irrefl _
      have n2 : ¬ x < a.1 := by rw [hx]; exact lt_irrefl _
      have e : s.filter (fun a => decide (a.1 < x)) = [] := by
        rw [List.filter_eq_nil_iff]
        intro b hb
        have := h.1 b hb
        simp only [decide_eq_true_eq, not_lt]
        linarith
      rw [e] at ih
      simp only [List.filter_cons, hx, decide_true, decide_false, if_true,
        List.cons_append, Bool.false_eq_true, if_false, e, List.nil_append, lt_irrefl]
      rw [List.nil_append] at ih
      rw [← ih]
    · have n1 : ¬ a.1 = x := ne_of_gt hx
      have n2 : ¬ a.1 < x := hx.le.not_gt
      have e : s.filter (fun a => decide (a.1 < x)) = [] := by
        rw [List.filter_eq_nil_iff]
        intro b hb
        have := h.1 b hb
        simp only [decide_eq_true_eq, not_lt]
        linarith
      have e2 : s.filter (fun a => decide (a.1 = x)) = [] := by
        rw [List.filter_eq_nil_iff]
        intro b hb
        have := h.1 b hb
        simp only [decide_eq_true_eq]
        intro hbx
        linarith
      rw [e, e2] at ih
      simp only [List.filter_cons, hx, n1, n2, decide_true, decide_false, if_true,
        Bool.false_eq_true, if_false, e, e2, List.nil_append]
      simp only [List.nil_append] at ih
      rw [← ih]

/-- the sort is stable -/
theorem sortNodes_filter (t : List (ℝ × Fl)) (x : ℝ) :
    (sortNodes t).filter (fun a => decide (a.1 = x)) = t.filter (fun a => decide (a.1 = x)) := by
  set c := t.filter (fun a => decide (a.1 = x)) with hc
  have hmem : ∀ a ∈ c, a.1 = x := fun a ha => by simpa using (List.mem_filter.1 ha).2
  have h1 : c.Sublist (sortNodes t) := by
    refine List.sublist_mergeSort (le := fun a b : ℝ × Fl => decide (a.1 ≤ b.1))
      (fun a b c h1 h2 => by simp only [decide_eq_true_eq] at *; exact h1.trans h2)
      (fun a b => by
        simp only [Bool.or_eq_true, decide_eq_true_eq]
        exact le_total _ _) ?_ List.filter_sublist
    refine List.Pairwise.imp_of_mem ?_ (List.pairwise_of_forall (R := fun _ _ => True) fun _ _ => trivial)
    intro a b ha hb _
    simp [hmem a ha, hmem b hb]
  have h2 : c.Sublist ((sortNodes t).filter (fun a => decide (a.1 = x))) := by
    have := h1.filter (fun a => decide (a.1 = x))
    rwa [List.filter_eq_self.2 (fun a ha => by simp [hmem a ha])] at this
  have h3 : ((sortNodes t).filter (fun a => decide (a.1 = x))).length = c.length :=
    ((List.mergeSort_perm t _).filter _).length_eq
  exact (h2.eq_of_length h3.symm).symm

/-- value at a node: the last entry of the unsorted list with this abscissa -/
theorem npInterp_sort_at {x : ℝ} {y : Fl} (pre post : List (ℝ × Fl)) (h2 : ∀ p ∈ post, p.1 ≠ x) :
    npInterp (sortNodes (pre ++ (x, y) :: post)) x = y := by
  set t := pre ++ (x, y) :: post with ht
  have hf : t.filter (fun a => decide (a.1 = x)) =
      pre.filter (fun a => decide (a.1 = x)) ++ [(x, y)] := by
    rw [ht, List.filter_append, List.filter_cons]
    have : post.filter (fun a => decide (a.1 = x)) = [] := by
      rw [List.filter_eq_nil_iff]
      intro b hb
      simpa using h2 b hb
    simp [this]
  rw [sorted_split _ (sortNodes_pairwise t) x, sortNodes_filter, hf]
  rw [List.append_assoc, ← List.append_assoc, List.singleton_append]
  refine npInterp_at _ _ ?_ ?_
  · intro p hp
    rcases List.mem_append.1 hp with hp | hp
    · exact le_of_lt (by simpa using (List.mem_filter.1 hp).2)
    · exact le_of_eq (by simpa using (List.mem_filter.1 hp).2)
  · intro p hp
    simpa using (List.mem_filter.1 hp).2

/-- every node lies between the first and the last sorted node -/
theorem sorted_bounds {s : List (ℝ × Fl)} (h : s.Pairwise fun a b => a.1 ≤ b.1) {a b c : ℝ × Fl}
    (ha : s.head? = some a) (hb : s.getLast? = some b) (hc : c ∈ s) : a.1 ≤ c.1 ∧ c.1 ≤ b.1 := by
  constructor
  · cases s with
    | nil => simp at hc
    | cons d s =>
      obtain rfl : d = a := by simpa using ha
      rcases List.mem_cons.1 hc with rfl | hc
      · exact le_rfl
      · exact (List.pairwise_cons.1 h).1 c hc
  · obtain ⟨s', rfl⟩ : ∃ s', s = s' ++ [b] := by
      obtain ⟨s', hs⟩ := List.getLast?_eq_some_iff.1 hb
      exact ⟨s', hs⟩
    rcases List.mem_append.1 hc with hc | hc
    · exact (List.pairwise_append.1 h).2.2 c hc b (by simp)
    · rw [List.mem_singleton.1 hc]

theorem interp1d_inside {t : List (ℝ × Fl)} {below above : Fl} {x : ℝ} {a b : ℝ × Fl} (ha : a ∈ t)
    (hb : b ∈ t) (h1 : a.1 ≤ x) (h2 : x ≤ b.1) :
    interp1d t below above x = npInterp (sortNodes t) x := by
  have hne : sortNodes t ≠ [] := by
    intro h
    have := mem_sortNodes.2 ha
    rw [h] at this
    simp at this
  obtain ⟨p, hp⟩ : ∃ p, (sortNodes t).head? = some p := by
    cases h : sortNodes t with
    | nil => exact absurd h hne
    | cons p s => exact ⟨p, rfl⟩
  obtain ⟨q, hq⟩ : ∃ q, (sortNodes t).getLast? = some q := ⟨_, List.getLast?_eq_getLast_of_ne_nil hne⟩
  have b1 := (sorted_bounds (sortNodes_pairwise t) hp hq (mem_sortNodes.2 ha)).1
  have b2 := (sorted_bounds (sortNodes_pairwise t) hp hq (mem_sortNodes.2 hb)).2
  simp only [interp1d, hp, hq]
  rw [if_neg (by linarith), if_neg (by linarith)]

theorem xrmacCall_eq {t : Table} (h : PosTable t) {E : ℝ} (hE : 0 < E) : ∃ a b, t.head? = some a ∧
    t.getLast? = some b ∧ xrmacCall t E = .ok (flPow10 (interp1d (nodes t)
      (.fin (Real.logb 10 a.2)) (.fin (Real.logb 10 b.2)) (Real.logb 10 E))) := by
  obtain ⟨p, hp⟩ : ∃ p, t.head? = some p := by
    cases h' : t with
    | nil => exact absurd h' h.1
    | cons p s => exact ⟨p, rfl⟩
  obtain ⟨q, hq⟩ : ∃ q, t.getLast? = some q := ⟨_, List.getLast?_eq_getLast_of_ne_nil h.1⟩
  refine ⟨p, q, hp, hq, ?_⟩
  have hpm : p ∈ t := List.mem_of_mem_head? hp
  have hqm : q ∈ t := List.mem_of_getLast? hq
  simp only [xrmacCall, interpolateLogLog, hp, hq, Except.map, nodes_eq h.2]
  simp [flLog10, (h.2 p hpm).2, (h.2 q hqm).2, hE, interp1dFl]

/-- at zero energy the value of the first row is returned -/
theorem call_zero {t : Table} (ht : PosTable t) {a : ℝ × ℝ} (ha : t.head? = some a) :
    HasValue t 0 a.2 := by
  obtain ⟨q, hq⟩ : ∃ q, t.getLast? = some q := ⟨_, List.getLast?_eq_getLast_of_ne_nil ht.1⟩
  have h2 := (ht.2 a (List.mem_of_mem_head? ha)).2
  have : (10 : ℝ) ^ Real.logb 10 a.2 = a.2 := Real.rpow_logb (by norm_num) (by norm_num) h2
  simp [HasValue, xrmacCall, interpolateLogLog, ha, hq, Except.map, flLog10, interp1dFl, flPow10,
    h2, this]

/-- at a negative energy the result is nan -/
theorem call_neg {t : Table} (ht : t ≠ []) {E : ℝ} (hE : E < 0) : xrmacCall t E = .ok .nan := by
  obtain ⟨p, hp⟩ : ∃ p, t.head? = some p := by
    cases h' : t with
    | nil => exact absurd h' ht
    | cons p s => exact ⟨p, rfl⟩
  obtain ⟨q, hq⟩ : ∃ q, t.getLast? = some q := ⟨_, List.getLast?_eq_getLast_of_ne_nil ht⟩
  simp [xrmacCall, interpolateLogLog, hp, hq, Except.map, flLog10, interp1dFl, flPow10,
    hE.not_gt, hE.ne]

theorem logb_lt {a b : ℝ} (ha : 0 < a) (h : a < b) : Real.logb 10 a < Real.logb 10 b :=
  Real.logb_lt_logb (by norm_num) ha h

theorem logb_le {a b : ℝ} (ha : 0 < a) (h : a ≤ b) : Real.logb 10 a ≤ Real.logb 10 b :=
  Real.logb_le_logb_of_le (by norm_num) ha h

theorem logb_inj {a b : ℝ} (ha : 0 < a) (hb : 0 < b) (h : Real.logb 10 a = Real.logb 10 b) :
    a = b := by
  rcases lt_trichotomy a b with h1 | h1 | h1
  · exact absurd h (logb_lt ha h1).ne
  · exact h1
  · exact absurd h.symm (logb_lt hb h1).ne

theorem pow_logb {y : ℝ} (hy : 0 < y) : (10 : ℝ) ^ Real.logb 10 y = y :=
  Real.rpow_logb (by norm_num) (by norm_num) hy

theorem lerp_bounds {x0 x1 a b x lo hi : ℝ} (h0 : x0 ≤ x) (h1 : x < x1) (ha : lo ≤ a ∧ a ≤ hi)
    (hb : lo ≤ b ∧ b ≤ hi) : ∃ v, lerp x0 (.fin a) x1 (.fin b) x = .fin v ∧ lo ≤ v ∧ v ≤ hi := by
  refine ⟨_, rfl, ?_⟩
  set t := (x - x0) / (x1 - x0) with ht
  have hd : 0 < x1 - x0 := by linarith
  have t0 : 0 ≤ t := div_nonneg (by linarith) hd.le
  have t1 : t ≤ 1 := (div_le_one hd).2 (by linarith)
  have e : (b - a) / (x1 - x0) * (x - x0) + a = (1 - t) * a + t * b := by
    rw [ht]; field_simp; ring
  rw [e]
  constructor <;> nlinarith [mul_nonneg t0 (sub_nonneg.2 hb.1), mul_nonneg t0 (sub_nonneg.2 hb.2),
    mul_nonneg (sub_nonneg.2 t1) (sub_nonneg.2 ha.1), mul_nonneg (sub_nonneg.2 t1) (sub_nonneg.2 ha.2)]

theorem npInterp_bounds {lo hi x : ℝ} {s : List (ℝ × Fl)}
    (hv : ∀ p ∈ s, ∃ v, p.2 = .fin v ∧ lo ≤ v ∧ v ≤ hi) {p : ℝ × Fl} (hp : s.head? = some p)
    (hx : p.1 ≤ x) : ∃ v, npInterp s x = .fin v ∧ lo ≤ v ∧ v ≤ hi := by
  induction s generalizing p with
  | nil => simp at hp
  | cons a s ih =>
    obtain rfl : a = p := by simpa using hp
    obtain ⟨x0, y0⟩ := a
    cases s with
    | nil =>
      obtain ⟨v, h1, h2⟩ := hv (x0, y0) (by simp)
      exact ⟨v, h1, h2⟩
    | cons b s =>
      obtain ⟨x1, y1⟩ := b
      simp only [npInterp]
      split_ifs with h1 h2
      · exact ih (fun q hq => hv q (by simp [hq])) (p := (x1, y1)) rfl h1
      · exact hv (x0, y0) (by simp)
      · obtain ⟨v, e1, h1'⟩ := hv (x0, y0) (by simp)
        obtain ⟨w, e2, h2'⟩ := hv (x1, y1) (by simp)
        simp only at e1 e2
        subst e1 e2
        exact lerp_bounds hx (not_le.1 h1) h1' h2'

theorem interp1d_bounds {lo hi x : ℝ} {t : List (ℝ × Fl)} {A B : ℝ} (hne : t ≠ [])
    (hv : ∀ p ∈ t, ∃ v, p.2 = .fin v ∧ lo ≤ v ∧ v ≤ hi) (hA : lo ≤ A ∧ A ≤ hi)
    (hB : lo ≤ B ∧ B ≤ hi) : ∃ v, interp1d t (.fin A) (.fin B) x = .fin v ∧ lo ≤ v ∧ v ≤ hi := by
  have hne' : sortNodes t ≠ [] := by
    obtain ⟨a, ha⟩ := List.exists_mem_of_ne_nil t hne
    exact List.ne_nil_of_mem (mem_sortNodes.2 ha)
  obtain ⟨p, hp⟩ : ∃ p, (sortNodes t).head? = some p := by
    cases h : sortNodes t with
    | nil => exact absurd h hne'
    | cons p s => exact ⟨p, rfl⟩
  obtain ⟨q, hq⟩ : ∃ q, (sortNodes t).getLast? = some q :=
    ⟨_, List.getLast?_eq_getLast_of_ne_nil hne'⟩
  simp only [interp1d, hp, hq]
  split_ifs with h1 h2
  · exact ⟨A, rfl, hA⟩
  · exact ⟨B, rfl, hB⟩
  · exact npInterp_bounds (fun r hr => hv r (mem_sortNodes.1 hr)) hp (not_lt.1 h1)

/-! ## Change of units -/

/-- shift abscissas by `c` and finite values by `d` -/
noncomputable def shiftNode (c d : ℝ) (p : ℝ × Fl) : ℝ × Fl :=
  (p.1 + c, match p.2 with
    | .fin y => .fin (y + d)
    | y => y)

/-- shift a float -/
noncomputable def shiftFl (d : ℝ) : Fl → Fl
  | .fin y => .fin (y + d)
  | y => y

theorem shiftNode_snd (c d : ℝ) (p : ℝ × Fl) : (shiftNode c d p).2 = shiftFl d p.2 := by
  unfold shiftNode shiftFl
  cases p.2 <;> rfl

theorem lerp_shift (c d x0 x1 x : ℝ) (y0 y1 : Fl) :
    lerp (x0 + c) (shiftFl d y0) (x1 + c) (shiftFl d y1) (x + c) = shiftFl d (lerp x0 y0 x1 y1 x) := by
  cases y0 <;> cases y1 <;> simp [lerp, shiftFl]
  ring

theorem npInterp_shift (c d : ℝ) (s : List (ℝ × Fl)) (x : ℝ) :
    npInterp (s.map (shiftNode c d)) (x + c) = shiftFl d (npInterp s x) := by
  induction s with
  | nil => rfl
  | cons a s ih =>
    obtain ⟨x0, y0⟩ := a
    cases s with
    | nil => exact shiftNode_snd c d (x0, y0)
    | cons b s =>
      obtain ⟨x1, y1⟩ := b
      have e : ∀ x y, shiftNode c d (x, y) = (x + c, shiftFl d y) := fun x y =>
        Prod.ext rfl (shiftNode_snd c d (x, y))
      simp only [List.map_cons, e, npInterp, add_le_add_iff_right, add_left_inj] at ih ⊢
      rw [ih, lerp_shift]
      split_ifs <;> rfl

theorem sortNodes_shift (c d : ℝ) (t : List (ℝ × Fl)) :
    sortNodes (t.map (shiftNode c d)) = (sortNodes t).map (shiftNode c d) := by
  unfold sortNodes
  rw [← List.map_mergeSort (r := fun a b : ℝ × Fl => decide (a.1 ≤ b.1))]
  intro a _ b _
  simp [shiftNode]

theorem interp1d_shift (c d : ℝ) (t : List (ℝ × Fl)) (A B : Fl) (x : ℝ) :
    interp1d (t.map (shiftNode c d)) (shiftFl d A) (shiftFl d B) (x + c) =
      shiftFl d (interp1d t A B x) := by
  have e1 : ∀ p : ℝ × Fl, (shiftNode c d p).1 = p.1 + c := fun _ => rfl
  simp only [interp1d, sortNodes_shift, List.head?_map, List.getLast?_map]
  rcases (sortNodes t).head? with _ | p
  · simp [shiftFl]
  rcases (sortNodes t).getLast? with _ | q
  · simp [shiftFl]
  simp only [Option.map_some, e1, add_lt_add_iff_right, npInterp_shift]
  split_ifs <;> rfl

theorem flPow10_shift {f : ℝ} (hf : 0 < f) {y : ℝ} :
    flPow10 (shiftFl (Real.logb 10 f) (.fin y)) = .fin (f * (10 : ℝ) ^ y) := by
  simp only [shiftFl, flPow10]
  rw [Real.rpow_add (by norm_num), pow_logb hf, mul_comm]

/-! ## Outside the table, zero tables -/

theorem call_below {t : Table} (ht : PosTable t) {E : ℝ} (hE : 0 ≤ E) {a : ℝ × ℝ}
    (ha : t.head? = some a) (hlt : ∀ r ∈ t, E < r.1) : HasValue t E a.2 := by
  rcases hE.eq_or_lt with rfl | hE
  · exact call_zero ht ha
  obtain ⟨a', b, ha', hb, hc⟩ := xrmacCall_eq ht hE
  rw [ha] at ha'
  cases ha'
  have am := List.mem_of_mem_head? ha
  have hne : sortNodes (nodes t) ≠ [] :=
    List.ne_nil_of_mem (mem_sortNodes.2 (List.mem_map.2 ⟨a, am, rfl⟩))
  obtain ⟨p, hp⟩ : ∃ p, (sortNodes (nodes t)).head? = some p := by
    cases h : sortNodes (nodes t) with
    | nil => exact absurd h hne
    | cons p s => exact ⟨p, rfl⟩
  obtain ⟨q, hq⟩ : ∃ q, (sortNodes (nodes t)).getLast? = some q :=
    ⟨_, List.getLast?_eq_getLast_of_ne_nil hne⟩
  have hpm := mem_sortNodes.1 (List.mem_of_mem_head? hp)
  obtain ⟨r, hr, rfl⟩ := List.mem_map.1 hpm
  rw [HasValue, hc]
  simp only [interp1d, hp, hq]
  rw [if_pos (logb_lt hE (hlt r hr))]
  simp [flPow10, pow_logb (ht.2 a am).2]

theorem call_above {t : Table} (ht : PosTable t) {E : ℝ} {b : ℝ × ℝ}
    (hb : t.getLast? = some b) (hlt : ∀ r ∈ t, r.1 < E) : HasValue t E b.2 := by
  have bm := List.mem_of_getLast? hb
  obtain ⟨a, b', ha, hb', hc⟩ := xrmacCall_eq ht ((ht.2 b bm).1.trans (hlt b bm))
  rw [hb] at hb'
  cases hb'
  have hne : sortNodes (nodes t) ≠ [] :=
    List.ne_nil_of_mem (mem_sortNodes.2 (List.mem_map.2 ⟨b, bm, rfl⟩))
  obtain ⟨p, hp⟩ : ∃ p, (sortNodes (nodes t)).head? = some p := by
    cases h : sortNodes (nodes t) with
    | nil => exact absurd h hne
    | cons p s => exact ⟨p, rfl⟩
  obtain ⟨q, hq⟩ : ∃ q, (sortNodes (nodes t)).getLast? = some q :=
    ⟨_, List.getLast?_eq_getLast_of_ne_nil hne⟩
  have hpm := mem_sortNodes.1 (List.mem_of_mem_head? hp)
  have hqm := mem_sortNodes.1 (List.mem_of_getLast? hq)
  obtain ⟨r, hr, rfl⟩ := List.mem_map.1 hpm
  obtain ⟨r', hr', rfl⟩ := List.mem_map.1 hqm
  rw [HasValue, hc]
  simp only [interp1d, hp, hq]
  rw [if_neg (not_lt.2 (logb_lt (ht.2 r hr).1 (hlt r hr)).le),
    if_pos (logb_lt (ht.2 r' hr').1 (hlt r' hr'))]
  simp [flPow10, pow_logb (ht.2 b bm).2]

theorem npInterp_ninf {s : List (ℝ × Fl)} (h : ∀ p ∈ s, p.2 = .ninf) (hne : s ≠ []) (x : ℝ) :
    npInterp s x = .ninf := by
  induction s with
  | nil => exact absurd rfl hne
  | cons a s ih =>
    obtain ⟨x0, y0⟩ := a
    obtain rfl : y0 = .ninf := h (x0, y0) (by simp)
    cases s with
    | nil => rfl
    | cons b s =>
      obtain ⟨x1, y1⟩ := b
      obtain rfl : y1 = .ninf := h (x1, y1) (by simp)
      simp only [npInterp]
      split_ifs
      · exact ih (fun p hp => h p (by simp [hp])) (by simp)
      · rfl
      · rfl

end Ries
