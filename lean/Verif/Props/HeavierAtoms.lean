import Verif.Lemmas.ShippedHeavier
import Verif.Props.XrmacEdges
import Verif.Props.NaturalElements

/-! # Property C184: heavier atoms attenuate photons more strongly -/

open Set

namespace Ries

open Text

set_option maxRecDepth 100000

/-- only the nodes from the last one not above the abscissa on matter -/
theorem interpR_drop {x : ℝ} (pre : List (ℝ × ℝ)) (c : ℝ × ℝ) (post : List (ℝ × ℝ))
    (hs : (pre ++ c :: post).Pairwise fun p q => p.1 ≤ q.1) (hc : c.1 ≤ x) :
    interpR (pre ++ c :: post) x = interpR (c :: post) x := by
  induction pre with
  | nil => rfl
  | cons a pre ih =>
    have hs' : (pre ++ c :: post).Pairwise fun p q => p.1 ≤ q.1 := (List.pairwise_cons.1 hs).2
    rw [← ih hs']
    obtain ⟨b, r, e⟩ : ∃ b r, pre ++ c :: post = b :: r := by
      cases pre with
      | nil => exact ⟨_, _, rfl⟩
      | cons b r => exact ⟨_, _, rfl⟩
    have hb : b.1 ≤ c.1 := by
      have hcm : c ∈ b :: r := by rw [← e]; simp
      rw [e] at hs'
      rcases List.mem_cons.1 hcm with rfl | h
      · exact le_rfl
      · exact (List.pairwise_cons.1 hs').1 c h
    rw [List.cons_append, e, interpR, if_pos (hb.trans hc)]

/-- nodes that are lower by more than `c` at the same abscissae have an interpolation that is lower by more than `c` -/
theorem interpR_lt {c x : ℝ} {s t : List (ℝ × ℝ)} (h : List.Forall₂ (fun p q => p.1 = q.1 ∧ p.2 + c < q.2) s t)
    (hne : s ≠ []) (hx : ∀ a ∈ s.head?, a.1 ≤ x) : interpR s x + c < interpR t x := by
  induction h with
  | nil => exact absurd rfl hne
  | @cons a b s t hab hst ih =>
    cases hst with
    | nil => simpa [interpR] using hab.2
    | @cons a' b' s t hab' hst =>
      have ha := hx a (by simp)
      rw [interpR, interpR, ← hab'.1]
      by_cases hb : a'.1 ≤ x
      · rw [if_pos hb, if_pos hb]
        exact ih (by simp) (by simpa using hb)
      · rw [if_neg hb, if_neg hb]
        push Not at hb
        have hpos : 0 < a'.1 - a.1 := by linarith
        rw [ramp, ramp, ← hab'.1, ← hab.1, max_eq_left ha]
        set l := (x - a.1) / (a'.1 - a.1) with hl
        have l0 : 0 ≤ l := div_nonneg (by linarith) hpos.le
        have l1 : l < 1 := (div_lt_one hpos).2 (by linarith)
        have e1 : (a'.2 - a.2) / (a'.1 - a.1) * (x - a.1) = l * (a'.2 - a.2) := by rw [hl]; ring
        have e2 : (b'.2 - b.2) / (a'.1 - a.1) * (x - a.1) = l * (b'.2 - b.2) := by rw [hl]; ring
        rw [e1, e2]
        clear_value l
        have h1 : 0 < (1 - l) * (b.2 - a.2 - c) := mul_pos (by linarith) (by linarith [hab.2])
        have h2 : 0 ≤ l * (b'.2 - a'.2 - c) := mul_nonneg l0 (by linarith [hab'.2])
        nlinarith

/-- C184 for tables: if two sorted tables list the same energies from some energy on, and the rows of the first one times `m`
are smaller there than those of the second one times `n`, then the same holds for the interpolated values at all energies
from there on, tabulated or not. -/
theorem C184_tables {t t' pre pre' hi hi' : Table} (ht : PosTable t) (hs : SortedTable t) (ht' : PosTable t')
    (hs' : SortedTable t') (e : t = pre ++ hi) (e' : t' = pre' ++ hi') {m n : ℝ} (hm : 0 < m) (hn : 0 < n)
    (h : List.Forall₂ (fun p q => p.1 = q.1 ∧ m * p.2 < n * q.2) hi hi') {a : ℝ × ℝ} (ha : hi.head? = some a)
    {E v w : ℝ} (hE : a.1 ≤ E) (hv : HasValue t E v) (hw : HasValue t' E w) : m * v < n * w := by
  subst e e'
  cases h with
  | nil => simp at ha
  | @cons p q s r hpq hsr =>
    obtain rfl : p = a := by simpa using ha
    have hp := ht.2 p (by simp)
    have hE0 : 0 < E := hp.1.trans_le hE
    have e1 := Fl.fin.inj (Except.ok.inj (hv.symm.trans (call_interpR ht hs hE0)))
    have e2 := Fl.fin.inj (Except.ok.inj (hw.symm.trans (call_interpR ht' hs' hE0)))
    have n1 := nodesR_sorted ht hs
    have n2 := nodesR_sorted ht' hs'
    have d1 : interpR (nodesR (pre ++ p :: s)) (Real.logb 10 E) = interpR (nodesR (p :: s)) (Real.logb 10 E) := by
      unfold nodesR at n1 ⊢
      rw [List.map_append, List.map_cons] at n1 ⊢
      exact interpR_drop _ _ _ n1 (logb_le hp.1 hE)
    have d2 : interpR (nodesR (pre' ++ q :: r)) (Real.logb 10 E) = interpR (nodesR (q :: r)) (Real.logb 10 E) := by
      unfold nodesR at n2 ⊢
      rw [List.map_append, List.map_cons] at n2 ⊢
      exact interpR_drop _ _ _ n2 (by rw [← hpq.1]; exact logb_le hp.1 hE)
    have hf : List.Forall₂ (fun p q => p.1 = q.1 ∧ p.2 + (Real.logb 10 m - Real.logb 10 n) < q.2)
        (nodesR (p :: s)) (nodesR (q :: r)) := by
      unfold nodesR
      rw [List.forall₂_map_left_iff, List.forall₂_map_right_iff]
      have h' : List.Forall₂ (fun p q => p.1 = q.1 ∧ m * p.2 < n * q.2) (p :: s) (q :: r) := .cons hpq hsr
      have hmem : ∀ c ∈ p :: s, 0 < c.2 := fun c hc => (ht.2 c (List.mem_append_right _ hc)).2
      have hmem' : ∀ c ∈ q :: r, 0 < c.2 := fun c hc => (ht'.2 c (List.mem_append_right _ hc)).2
      clear d1 d2 n1 n2 e1 e2 hsr hpq ha hE hv hw ht hs ht' hs' hp
      revert h' hmem hmem'
      generalize p :: s = L
      generalize q :: r = L'
      intro h'
      induction h' with
      | nil => exact fun _ _ => .nil
      | @cons c d _ _ hcd _ ih =>
        intro k k'
        refine .cons ⟨by rw [hcd.1], ?_⟩ (ih (fun x hx => k x (List.mem_cons_of_mem _ hx))
          fun x hx => k' x (List.mem_cons_of_mem _ hx))
        have kc := k c (by simp)
        have kd := k' d (by simp)
        have := Real.logb_lt_logb (b := 10) (by norm_num) (mul_pos hm kc) hcd.2
        rw [Real.logb_mul hm.ne' kc.ne', Real.logb_mul hn.ne' kd.ne'] at this
        simp only
        linarith
    have key := interpR_lt hf (by simp [nodesR]) (x := Real.logb 10 E) (by
      intro x hx
      simp only [nodesR, List.map_cons, List.head?_cons, Option.mem_def, Option.some.injEq] at hx
      subst hx
      exact logb_le hp.1 hE)
    rw [d1] at e1
    rw [d2] at e2
    have hv0 : 0 < v := by rw [e1]; exact Real.rpow_pos_of_pos (by norm_num) _
    have hw0 : 0 < w := by rw [e2]; exact Real.rpow_pos_of_pos (by norm_num) _
    have l1 : Real.logb 10 v = interpR (nodesR (p :: s)) (Real.logb 10 E) := by
      rw [e1, Real.logb_rpow (by norm_num) (by norm_num)]
    have l2 : Real.logb 10 w = interpR (nodesR (q :: r)) (Real.logb 10 E) := by
      rw [e2, Real.logb_rpow (by norm_num) (by norm_num)]
    rw [← Real.logb_lt_logb_iff (b := 10) (by norm_num) (mul_pos hm hv0) (mul_pos hn hw0), Real.logb_mul hm.ne' hv0.ne',
      Real.logb_mul hn.ne' hw0.ne', l1, l2]
    linarith

/-- The hypotheses of `C184_tables` are met by two tables with an edge of the first one at 2. -/
example : List.Forall₂ (fun p q : ℝ × ℝ => p.1 = q.1 ∧ (2 : ℝ) * p.2 < 3 * q.2) [(2, 9), (3, 1)] [(2, 7), (3, 4)] ∧
    ([(1, 8), (2, 4), (2, 9), (3, 1)] : Table) = [(1, 8), (2, 4)] ++ [(2, 9), (3, 1)] := by
  norm_num

theorem rowsBelow_forall {m n : ℚ} : ∀ {s t : List Line}, rowsBelow m n s t = true →
    List.Forall₂ (fun p q : ℝ × ℝ => p.1 = q.1 ∧ (m : ℝ) * p.2 < n * q.2)
      (s.map fun l => ((l.energy.value : ℝ), (l.mu.value : ℝ))) (t.map fun l => ((l.energy.value : ℝ), (l.mu.value : ℝ)))
  | [], [], _ => .nil
  | p :: s, q :: t, h => by
    simp only [rowsBelow, Bool.and_eq_true, decide_eq_true_eq] at h
    refine .cons ⟨by simp only [h.1.1], ?_⟩ (rowsBelow_forall h.2)
    simp only
    exact_mod_cast h.1.2

/-- the elements with a mass are those with a tabulated composition and more than one natural isotope -/
theorem withMass_iff : ∀ Z ∈ List.range' 1 92, (Tabulated Z ∧ Z ∉ singleIsotope) → Z ∈ withMass := by decide +kernel

theorem withMass_sorted : withMass.Pairwise (· < ·) := by decide +kernel

/-- C184, proved part: among the 62 elements whose mass is not read as zero, an atom with a larger atomic number attenuates photons
of every energy from 0.15 MeV on more strongly than an atom with a smaller one. -/
theorem C184_partial {mu : ℝ} (hmu : 0 < mu) :
    ∃ st, importXrmac shippedNist.render shippedDensities.render xrmacText mu = .ok st ∧
      ∀ Z ∈ List.range' 1 92, ∀ Z' ∈ List.range' 1 92, (Tabulated Z ∧ Z ∉ singleIsotope) →
        (Tabulated Z' ∧ Z' ∉ singleIsotope) → Z < Z' →
        ∃ a a', dictGet (symbolOf Z) st.perAtom = .ok a ∧ dictGet (symbolOf Z') st.perAtom = .ok a' ∧
          ∀ E, 0.15 ≤ E → ∃ w w', a.call E = .ok (.fin w) ∧ a'.call E = .ok (.fin w') ∧ 0 < w ∧ w < w' := by
  obtain ⟨syms, els, h1, h2⟩ := shipped_loopInput
  obtain ⟨st, h3, -, -, -, h5⟩ := moduleLoop_ok (mu := mu) h2
  have hpos : ∀ Z ∈ List.range' 1 92, (Tabulated Z ∧ Z ∉ singleIsotope) → 0 < (shippedElement Z).amu := by
    intro Z hZ ht
    obtain ⟨syms', els', e1, e2⟩ := C58_partial
    rw [h1] at e1
    obtain ⟨rfl, rfl⟩ := Prod.mk.inj (Except.ok.inj e1)
    have sub : Z ∈ List.range' 1 118 := by
      rw [List.mem_range'_1] at hZ ⊢
      omega
    obtain ⟨e, e3, -, e5, -⟩ := e2 Z sub
    rw [h2.element Z hZ] at e3
    obtain rfl := Except.ok.inj e3
    exact (e5 ht.1 ht.2).1
  refine ⟨st, importXrmac_ok h1 h3, fun Z hZ Z' hZ' ht ht' hlt => ?_⟩
  have hl : lighter Z Z' = true := by
    have m1 := withMass_iff Z hZ ht
    have m2 := withMass_iff Z' hZ' ht'
    have p1 := withMass_pairwise
    have p2 := withMass_sorted
    generalize withMass = L at m1 m2 p1 p2
    have hp := p1.and p2
    have : ∀ a ∈ L, ∀ b ∈ L, a < b → lighter a b = true := by
      clear m1 m2 p1 p2
      induction L with
      | nil => simp
      | cons x L ih =>
        obtain ⟨k1, k2⟩ := List.pairwise_cons.1 hp
        intro a ha b hb hab
        rcases List.mem_cons.1 ha with ha | ha <;> rcases List.mem_cons.1 hb with hb | hb
        · exact absurd hab (by rw [ha, hb]; exact lt_irrefl _)
        · exact ha ▸ (k1 b hb).1
        · exact absurd ((k1 a ha).2.trans (hb ▸ hab)) (lt_irrefl _)
        · exact ih k2 a ha b hb hab
    exact this Z m1 Z' m2 hlt
  obtain ⟨-, a, -, h7, -, h9, -⟩ := h5 Z hZ
  obtain ⟨-, a', -, h7', -, h9', -⟩ := h5 Z' hZ'
  refine ⟨a, a', h7, h7', fun E hE => ?_⟩
  have hE0 : 0 < E := lt_of_lt_of_le (by norm_num) hE
  obtain ⟨rows, h12, h13⟩ := read_shipped hZ fun y => y * fm2PerAtom mu (shippedElement Z).amu
  obtain rfl := Except.ok.inj (h9.symm.trans h12)
  obtain ⟨rows', h12', h13'⟩ := read_shipped hZ' fun y => y * fm2PerAtom mu (shippedElement Z').amu
  obtain rfl := Except.ok.inj (h9'.symm.trans h12')
  have p := hpos Z hZ ht
  have p' := hpos Z' hZ' ht'
  have q := tableOf_pos hZ
  have q' := tableOf_pos hZ'
  have s := tableOf_sorted hZ
  have s' := tableOf_sorted hZ'
  have hh := highLines_head Z hZ
  unfold lighter highLines at hl
  unfold highLines at hh
  generalize (shippedElement Z).amu = m at h13 p hl
  generalize (shippedElement Z').amu = n at h13' p' hl
  obtain ⟨v, hv0, hv, hs⟩ := both_units q hmu p.le hE0.le
  obtain ⟨v', hv0', hv', hs'⟩ := both_units q' hmu p'.le hE0.le
  have pm : (0 : ℝ) < m := by exact_mod_cast p
  have pn : (0 : ℝ) < n := by exact_mod_cast p'
  refine ⟨_, _, by rw [StoredXrmac.call, h13, hs], by rw [StoredXrmac.call, h13', hs'], by positivity, ?_⟩
  have key : (m : ℝ) * v < n * v' := by
    clear h13 h13' hs hs'
    unfold tableOf at q q' s s' hv hv'
    generalize xrmacLines Z = ls at q s hv hl hh
    generalize xrmacLines Z' = ls' at q' s' hv' hl
    have e : ∀ l : List Line, (l.map fun l => ((l.energy.value : ℝ), (l.mu.value : ℝ))) =
        ((l.takeWhile fun l => decide (l.energy.value < 0.15)).map fun l => ((l.energy.value : ℝ), (l.mu.value : ℝ))) ++
        (l.dropWhile fun l => decide (l.energy.value < 0.15)).map fun l => ((l.energy.value : ℝ), (l.mu.value : ℝ)) := by
      intro l
      rw [← List.map_append, List.takeWhile_append_dropWhile]
    obtain ⟨x, hx, hxe⟩ : ∃ x, (ls.dropWhile fun l => decide (l.energy.value < 0.15)).head? = some x ∧
        x.energy.value = 0.15 := by
      cases hd : (ls.dropWhile fun l => decide (l.energy.value < 0.15)).head? with
      | none => rw [hd] at hh; simp at hh
      | some x => rw [hd] at hh; exact ⟨x, rfl, by simpa using hh⟩
    refine C184_tables q s q' s' (e ls) (e ls') pm pn (rowsBelow_forall hl)
      (a := ((x.energy.value : ℝ), (x.mu.value : ℝ))) (by rw [List.head?_map, hx]; rfl) ?_ hv hv'
    simp only [hxe]
    norm_num at hE ⊢
    exact hE
  calc 1e29 * (m : ℝ) * mu * v = 1e29 * mu * (m * v) := by ring
    _ < 1e29 * mu * (n * v') := by gcongr
    _ = _ := by ring

theorem magnesium_natural : Tabulated 12 ∧ 12 ∉ singleIsotope := by decide +kernel

/-- C184 is false of the code: the attenuation of an aluminium atom (13) is zero, the one of a magnesium atom (12) is not. -/
theorem C184_refuted {mu : ℝ} (hmu : 0 < mu) :
    ∃ st a a', importXrmac shippedNist.render shippedDensities.render xrmacText mu = .ok st ∧
      dictGet (symbolOf 12) st.perAtom = .ok a ∧ dictGet (symbolOf 13) st.perAtom = .ok a' ∧
      ∀ E, 0 < E → ∃ w w', a.call E = .ok (.fin w) ∧ a'.call E = .ok (.fin w') ∧ w' < w := by
  obtain ⟨st, h1, h2⟩ := C73_partial hmu
  obtain ⟨g, a, -, h3, h4⟩ := h2 12 (by decide)
  obtain ⟨g', a', -, h5, h6⟩ := h2 13 (by decide)
  refine ⟨st, a, a', h1, h3, h5, fun E hE => ?_⟩
  obtain ⟨v, -, -, -, h7, -⟩ := h4 E hE.le
  obtain ⟨v', -, -, -, -, h8⟩ := h6 E hE.le
  obtain ⟨w, h9, h10⟩ := h7 magnesium_natural.1 magnesium_natural.2
  exact ⟨w, 0, h9, h8 (.inr (by decide)), h10⟩

end Ries
