import Verif.Lemmas.XrmacMono
import Verif.Lemmas.ShippedXrmacMono
import Verif.Props.XrmacCont
import Verif.Props.XrmacModule

/-! # Property C166: absorption edges and decrease of the attenuation with the energy -/

open Filter Topology Set

namespace Ries

open Text

set_option maxRecDepth 100000

/-- The values of consecutive rows decrease strictly from the energy `A` to the energy `B`. -/
def DecreasingRows (A B : ℝ) (t : Table) : Prop :=
  t.IsChain fun p q => q.1 ≤ A ∨ (B ≤ p.1 ∧ B < q.1) ∨ (p.1 < q.1 ∧ q.2 < p.2)

/-- C166: if the tabulated values decrease from the energy `A` to the energy `B` of a sorted table, then the interpolated
coefficient decreases strictly between any two energies of this range, tabulated or not. -/
theorem C166_decreasing {t : Table} (ht : PosTable t) (hs : SortedTable t) {A B : ℝ} (hd : DecreasingRows A B t)
    (hA : ∃ r, t.head? = some r ∧ r.1 ≤ A) (hB : ∃ r ∈ t, B ≤ r.1) {E1 E2 v1 v2 : ℝ} (h1 : A ≤ E1) (h12 : E1 < E2)
    (h2 : E2 ≤ B) (hv1 : HasValue t E1 v1) (hv2 : HasValue t E2 v2) : v2 < v1 := by
  obtain ⟨a, ha, haA⟩ := hA
  have ha0 : 0 < a.1 := (ht.2 a (List.mem_of_mem_head? ha)).1
  have hE1 : 0 < E1 := by linarith
  have hE2 : 0 < E2 := by linarith
  have e1 : v1 = (10 : ℝ) ^ interpR (nodesR t) (Real.logb 10 E1) := by
    have := hv1.symm.trans (call_interpR ht hs hE1)
    simpa using this
  have e2 : v2 = (10 : ℝ) ^ interpR (nodesR t) (Real.logb 10 E2) := by
    have := hv2.symm.trans (call_interpR ht hs hE2)
    simpa using this
  rw [e1, e2]
  refine Real.rpow_lt_rpow_of_exponent_lt (by norm_num) ?_
  obtain ⟨s, rfl⟩ : ∃ s, t = a :: s := by
    cases t with
    | nil => simp at ha
    | cons c s => simp at ha; exact ⟨s, by rw [ha]⟩
  have hc : (nodesR (a :: s)).IsChain fun p q => q.1 ≤ Real.logb 10 E1 ∨
      (Real.logb 10 E2 ≤ p.1 ∧ Real.logb 10 E2 < q.1) ∨ (p.1 < q.1 ∧ q.2 < p.2) := by
    refine (List.isChain_map _).2 (List.IsChain.imp_of_mem_imp ?_ hd)
    intro p q hp hq h
    have p0 := ht.2 p hp
    have q0 := ht.2 q hq
    rcases h with h | h | h
    · exact .inl (logb_le q0.1 (h.trans h1))
    · exact .inr (.inl ⟨logb_le hE2 (h2.trans h.1), logb_lt hE2 (h2.trans_lt h.2)⟩)
    · exact .inr (.inr ⟨logb_lt p0.1 h.1, logb_lt q0.2 h.2⟩)
  obtain ⟨r, hr, hrB⟩ := hB
  exact interpR_strict (logb_lt hE1 h12) _ (nodesR s) hc (nodesR_sorted ht hs) (logb_le ha0 (haA.trans h1))
    ⟨(Real.logb 10 r.1, Real.logb 10 r.2), 
      List.mem_map_of_mem (f := fun r : ℝ × ℝ => (Real.logb 10 r.1, Real.logb 10 r.2)) hr,
      logb_le hE2 (h2.trans hrB)⟩

/-- in a sorted table, the first row of an energy -/
theorem first_row {t : Table} (hs : SortedTable t) {E : ℝ} (h : ∃ r ∈ t, r.1 = E) :
    ∃ pre c post, t = pre ++ c :: post ∧ c.1 = E ∧ ∀ r ∈ pre, r.1 < E := by
  induction t with
  | nil => simp at h
  | cons a t ih =>
    obtain ⟨ha, hs'⟩ := List.pairwise_cons.1 hs
    by_cases he : a.1 = E
    · exact ⟨[], a, t, rfl, he, by simp⟩
    · obtain ⟨r, hr, hrE⟩ := h
      replace hr : r ∈ t := by
        rcases List.mem_cons.1 hr with rfl | h
        · exact absurd hrE he
        · exact h
      obtain ⟨pre, c, post, e1, e2, e3⟩ := ih hs' ⟨r, hr, hrE⟩
      refine ⟨a :: pre, c, post, by rw [e1]; rfl, e2, fun x hx => ?_⟩
      rcases List.mem_cons.1 hx with rfl | hx
      · exact lt_of_le_of_ne (hrE ▸ ha r hr) he
      · exact e3 x hx

/-- in a sorted table, the last row of an energy -/
theorem last_row {t : Table} (hs : SortedTable t) {E : ℝ} (h : ∃ r ∈ t, r.1 = E) :
    ∃ pre c post, t = pre ++ c :: post ∧ c.1 = E ∧ ∀ r ∈ post, E < r.1 := by
  induction t with
  | nil => simp at h
  | cons a t ih =>
    obtain ⟨ha, hs'⟩ := List.pairwise_cons.1 hs
    by_cases he : ∃ r ∈ t, r.1 = E
    · obtain ⟨pre, c, post, e1, e2, e3⟩ := ih hs' he
      exact ⟨a :: pre, c, post, by rw [e1]; rfl, e2, e3⟩
    · obtain ⟨r, hr, hrE⟩ := h
      rcases List.mem_cons.1 hr with rfl | hr
      · refine ⟨[], r, t, rfl, hrE, fun x hx => lt_of_le_of_ne (hrE ▸ ha x hx) fun h => he ⟨x, hx, h.symm⟩⟩
      · exact absurd ⟨r, hr, hrE⟩ he

/-- C166: if rows of the same energy have increasing values, then every discontinuity of the coefficient is a jump to a
larger value. -/
theorem C166_jump {t : Table} (ht : PosTable t) (hs : SortedTable t)
    (hj : t.IsChain fun p q => p.1 < q.1 ∨ p.2 < q.2) :
    ∃ f : ℝ → ℝ, (∀ E, 0 ≤ E → HasValue t E (f E)) ∧
      (∀ E, 0 < E → ¬ AbsorptionEdge t E → ContinuousAt f E) ∧
      ∀ E, AbsorptionEdge t E → ∃ l, Tendsto f (𝓝[<] E) (𝓝 l) ∧ l < f E := by
  obtain ⟨f, h1, -, h2, -, h3, h4⟩ := C98_continuity ht hs
  refine ⟨f, h1, h2, fun E hE => ?_⟩
  have hp : t.Pairwise fun p q => p.1 < q.1 ∨ (p.1 = q.1 ∧ p.2 < q.2) := by
    have : IsTrans (ℝ × ℝ) fun p q => p.1 < q.1 ∨ (p.1 = q.1 ∧ p.2 < q.2) := by
      refine ⟨fun a b c h h' => ?_⟩
      rcases h with h | h <;> rcases h' with h' | h'
      · exact .inl (h.trans h')
      · exact .inl (h'.1 ▸ h)
      · exact .inl (h.1 ▸ h')
      · exact .inr ⟨h.1.trans h'.1, h.2.trans h'.2⟩
    refine List.isChain_iff_pairwise.1 ?_
    have hsc : t.IsChain fun a b => a.1 ≤ b.1 := List.Pairwise.isChain hs
    clear h1 h2 h3 h4 hs hE
    induction t with
    | nil => exact List.isChain_nil
    | cons a t ih =>
      cases t with
      | nil => exact List.isChain_singleton _
      | cons b t =>
        obtain ⟨j1, j2⟩ := List.isChain_cons_cons.1 hj
        obtain ⟨s1, s2⟩ := List.isChain_cons_cons.1 hsc
        refine List.isChain_cons_cons.2 ⟨?_, ih ⟨by simp, fun r hr => ht.2 r (List.mem_cons_of_mem _ hr)⟩ j2 s2⟩
        rcases j1 with j | j
        · exact .inl j
        · rcases s1.lt_or_eq with s | s
          · exact .inl s
          · exact .inr ⟨s, j⟩
  obtain ⟨pre, c, mid, d, post, e, hc, hd⟩ := hE
  have hcd : c.2 < d.2 := by
    rw [e, List.append_assoc, List.cons_append] at hp
    have := (List.pairwise_cons.1 (List.pairwise_append.1 hp).2.1).1 d (by simp)
    rcases this with h | h
    · linarith
    · exact h.2
  have hcm : c ∈ t := by rw [e]; simp
  have hdm : d ∈ t := by rw [e]; simp
  obtain ⟨p1, c', q1, e1, hc', hlt⟩ := first_row hs ⟨c, hcm, hc⟩
  obtain ⟨p2, d', q2, e2, hd', hgt⟩ := last_row hs ⟨d, hdm, hd⟩
  have hcc : c'.2 ≤ c.2 := by
    rw [e1] at hcm hp
    rcases List.mem_append.1 hcm with h | h
    · exact absurd (hlt c h) (by rw [hc]; exact lt_irrefl _)
    · rcases List.mem_cons.1 h with rfl | h
      · exact le_rfl
      · rcases (List.pairwise_cons.1 (List.pairwise_append.1 hp).2.1).1 c h with h | h
        · linarith
        · exact h.2.le
  have hdd : d.2 ≤ d'.2 := by
    rw [e2] at hdm hp
    rcases List.mem_append.1 hdm with h | h
    · rcases (List.pairwise_append.1 hp).2.2 d h d' (by simp) with h | h
      · linarith
      · exact h.2.le
    · rcases List.mem_cons.1 h with rfl | h
      · exact le_rfl
      · exact absurd (hgt d h) (by rw [hd]; exact lt_irrefl _)
  refine ⟨c'.2, ?_, ?_⟩
  · have := h3 p1 c'.1 c'.2 q1 e1 (by rw [hc']; exact hlt)
    rwa [hc'] at this
  · have := h4 p2 d'.1 d'.2 q2 e2 (by rw [hd']; exact hgt)
    rw [hd'] at this
    rw [this]
    linarith

/-- The hypotheses of C166 are met by a table with an edge at 2 whose values decrease up to 2 and beyond it. -/
example : PosTable [(1, 8), (2, 4), (2, 9), (3, 1)] ∧ SortedTable [(1, 8), (2, 4), (2, 9), (3, 1)] ∧
    DecreasingRows 2 3 [(1, 8), (2, 4), (2, 9), (3, 1)] ∧
    (List.IsChain (fun p q : ℝ × ℝ => p.1 < q.1 ∨ p.2 < q.2) [(1, 8), (2, 4), (2, 9), (3, 1)]) ∧
    AbsorptionEdge [(1, 8), (2, 4), (2, 9), (3, 1)] 2 := by
  refine ⟨exTable_pos, exTable_sorted, ?_, ?_, [(1, 8)], (2, 4), [], (2, 9), [(3, 1)], rfl, rfl, rfl⟩
  · norm_num [DecreasingRows]
  · norm_num

/-- the rows of the shipped tables -/
theorem shipped_rows {Z : ℕ} (hZ : Z ∈ List.range' 1 92) :
    (Z ≤ 15 → DecreasingRows 0.0022 20 (tableOf Z)) ∧ (15 < Z → DecreasingRows 0.115606 4 (tableOf Z)) ∧
      ((tableOf Z).IsChain fun p q => p.1 < q.1 ∨ p.2 < q.2) ∧
      (∃ r, (tableOf Z).head? = some r ∧ r.1 = 0.001) ∧ ∃ r ∈ tableOf Z, r.1 = 20 := by
  have h := shipped_mono hZ
  have hg := shipped_good hZ
  unfold checkMono at h
  unfold tableOf
  generalize xrmacLines Z = ls at h hg ⊢
  simp only [Bool.and_eq_true, decide_eq_true_eq] at h
  obtain ⟨h1, h2⟩ := h
  have hd : ∀ A B : ℚ, decrLines A B ls →
      DecreasingRows A B (ls.map fun l => ((l.energy.value : ℝ), (l.mu.value : ℝ))) := by
    intro A B h
    refine (List.isChain_map _).2 (h.imp fun p q h => ?_)
    simpa only [Rat.cast_le, Rat.cast_lt] using h
  refine ⟨fun hz => ?_, fun hz => ?_, ?_, ?_, ?_⟩
  · rw [if_pos hz, if_pos hz] at h1
    have := hd _ _ h1
    norm_num at this ⊢
    exact this
  · rw [if_neg (by omega), if_neg (by omega)] at h1
    have := hd _ _ h1
    norm_num at this ⊢
    exact this
  · refine (List.isChain_map _).2 (h2.imp fun p q h => ?_)
    simpa only [Rat.cast_lt] using h
  · obtain ⟨l, hl, he⟩ := Option.map_eq_some_iff.1 hg.first
    refine ⟨_, by rw [List.head?_map, hl]; rfl, ?_⟩
    simp only [he]
    norm_num
  · obtain ⟨l, hl, he⟩ := Option.map_eq_some_iff.1 hg.last
    refine ⟨_, List.mem_map.2 ⟨l, List.mem_of_getLast? hl, rfl⟩, ?_⟩
    simp only [he]
    norm_num

/-- C166: with the shipped files, every element from hydrogen to uranium has a mass attenuation coefficient that is defined
at all energies and whose discontinuities are jumps to a larger value.  The coefficient decreases strictly with the energy
from the highest absorption edge of all elements, 0.115606 MeV, to 4 MeV; for the elements up to phosphorus it does so
from 0.0022 MeV to 20 MeV. -/
theorem C166_shipped {mu : ℝ} :
    ∃ st, importXrmac shippedNist.render shippedDensities.render xrmacText mu = .ok st ∧
      ∀ Z ∈ List.range' 1 92, ∃ (g : StoredXrmac) (f : ℝ → ℝ), dictGet (symbolOf Z) st.perGram = .ok g ∧
        (∀ E, 0 ≤ E → g.call E = .ok (.fin (f E))) ∧
        (∀ E, 0 < E → ContinuousAt f E ∨ ∃ l, Tendsto f (𝓝[<] E) (𝓝 l) ∧ l < f E) ∧
        StrictAntiOn f (Icc 0.115606 4) ∧ (Z ≤ 15 → StrictAntiOn f (Icc 0.0022 20)) := by
  obtain ⟨syms, els, h1, h2⟩ := shipped_loopInput
  obtain ⟨st, h3, -, -, -, h5⟩ := moduleLoop_ok (mu := mu) h2
  refine ⟨st, importXrmac_ok h1 h3, fun Z hZ => ?_⟩
  obtain ⟨g, a, h6, h7, h8, h9, -⟩ := h5 Z hZ
  obtain ⟨rows, h10, h11⟩ := read_shipped hZ id
  obtain rfl := Except.ok.inj (h8.symm.trans h10)
  obtain ⟨r1, r2, r3, ⟨a1, ha1, ha2⟩, ⟨b1, hb1, hb2⟩⟩ := shipped_rows hZ
  have hp := tableOf_pos hZ
  have hs := tableOf_sorted hZ
  obtain ⟨f, f1, f2, f3⟩ := C166_jump hp hs r3
  have hm : ∀ A B : ℝ, DecreasingRows A B (tableOf Z) → 0.001 ≤ A → B ≤ 20 → StrictAntiOn f (Icc A B) := by
    intro A B hd hA hB x hx y hy hxy
    have hA0 : 0 < A := lt_of_lt_of_le (by norm_num) hA
    exact C166_decreasing hp hs hd ⟨a1, ha1, ha2 ▸ hA⟩ ⟨b1, hb1, hb2 ▸ hB⟩ hx.1 hxy hy.2
      (f1 x (hA0.le.trans hx.1)) (f1 y (hA0.le.trans hy.1))
  have hl : Z ≤ 15 → StrictAntiOn f (Icc 0.0022 20) := fun hz => hm _ _ (r1 hz) (by norm_num) (by norm_num)
  refine ⟨g, f, h6, fun E hE => ?_, fun E hE => ?_, ?_, hl⟩
  · rw [StoredXrmac.call, h11]
    simpa only [id, Prod.mk.eta, List.map_id', HasValue] using f1 E hE
  · by_cases he : AbsorptionEdge (tableOf Z) E
    · exact .inr (f3 E he)
    · exact .inl (f2 E hE he)
  · by_cases hz : Z ≤ 15
    · exact (hl hz).mono (Icc_subset_Icc (by norm_num) (by norm_num))
    · exact hm _ _ (r2 (by omega)) (by norm_num) (by norm_num)

/-- two lines of the table of lead -/
theorem lead_lines : ((xrmacLines 82)[51]?.map fun l => (l.energy.value, l.mu.value)) = some ((4 : ℚ), (0.04197 : ℚ)) ∧
    (((xrmacLines 82).drop 52).all fun l => decide (4 < l.energy.value)) = true ∧
    ((xrmacLines 82).getLast?.map fun l => (l.energy.value, l.mu.value)) = some ((20 : ℚ), (0.06206 : ℚ)) := by
  decide +kernel

/-- C166 cannot be extended beyond 4 MeV: photons of 20 MeV are absorbed more strongly by lead than photons of 4 MeV. -/
theorem C166_beyond_refuted {mu : ℝ} :
    ∃ st g, importXrmac shippedNist.render shippedDensities.render xrmacText mu = .ok st ∧
      dictGet (symbolOf 82) st.perGram = .ok g ∧ g.call 4 = .ok (.fin 0.04197) ∧ g.call 20 = .ok (.fin 0.06206) := by
  obtain ⟨syms, els, h1, h2⟩ := shipped_loopInput
  obtain ⟨st, h3, -, -, -, h5⟩ := moduleLoop_ok (mu := mu) h2
  have hZ : 82 ∈ List.range' 1 92 := by decide
  obtain ⟨g, a, h6, h7, h8, h9, -⟩ := h5 82 hZ
  obtain ⟨rows, h10, h11⟩ := read_shipped hZ id
  obtain rfl := Except.ok.inj (h8.symm.trans h10)
  have hp := tableOf_pos hZ
  have hl := lead_lines
  refine ⟨st, g, importXrmac_ok h1 h3, h6, ?_⟩
  simp only [StoredXrmac.call, h11, id]
  rw [show ((tableOf 82).map fun r => (r.1, r.2)) = tableOf 82 from List.map_id _]
  have hv : ∀ (pre : List Line) (l : Line) (post : List Line), xrmacLines 82 = pre ++ l :: post →
      (∀ r ∈ post, l.energy.value < r.energy.value) →
      xrmacCall (tableOf 82) (l.energy.value : ℝ) = .ok (.fin (l.mu.value : ℝ)) := by
    intro pre l post he hpost
    refine C48_nodes hp (pre.map fun l => ((l.energy.value : ℝ), (l.mu.value : ℝ)))
      (post.map fun l => ((l.energy.value : ℝ), (l.mu.value : ℝ))) ?_ ?_
    · rw [tableOf, he]; simp
    · intro r hr
      obtain ⟨l', hl', rfl⟩ := List.mem_map.1 hr
      exact (Rat.cast_lt.2 (hpost l' hl')).ne'
  generalize xrmacLines 82 = ls at hl hv
  obtain ⟨l1, l2, l3⟩ := hl
  constructor
  · obtain ⟨l, e1, e2⟩ := Option.map_eq_some_iff.1 l1
    obtain ⟨hi, e1⟩ := List.getElem?_eq_some_iff.1 e1
    obtain ⟨e3, e4⟩ := Prod.mk.inj e2
    have := hv (ls.take 51) l (ls.drop 52) (by rw [← e1, List.cons_getElem_drop_succ, List.take_append_drop]) (by
      intro r hr
      have := List.all_eq_true.1 l2 r hr
      rw [e3]
      simpa using this)
    rw [e3, e4] at this
    norm_num at this ⊢
    exact this
  · obtain ⟨l, e1, e2⟩ := Option.map_eq_some_iff.1 l3
    obtain ⟨e3, e4⟩ := Prod.mk.inj e2
    have := hv ls.dropLast l [] (by rw [List.dropLast_append_getLast? _ e1]) (by simp)
    rw [e3, e4] at this
    norm_num at this ⊢
    exact this

end Ries
