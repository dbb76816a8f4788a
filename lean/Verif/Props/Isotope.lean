import Verif.Model.Isotope
import Mathlib.Tactic.Linarith

/-! # Property C115: the excited states of an isotope -/

namespace Ries.Iso

variable {σ : Type}

/-- C115 is false of the code, in two ways: an array with two states is rejected, and a container that is still empty is
replaced by a new list, so that states put into it later do not belong to the isotope. -/
theorem C115_refuted :
    (¬ ∀ (σ : Type) (h : Store σ) (AX : String) (amu : ℚ) (g : Option σ) (r : ℕ), r < h.length →
      ∃ i h', new h AX amu g (some r) = .ok (i, h')) ∧
    (¬ ∀ (σ : Type) (h : Store σ) (AX : String) (amu : ℚ) (g : Option σ) (r : ℕ) (i : Isotope σ) (h' : Store σ),
      new h AX amu g (some r) = .ok (i, h') → i.excited = r) := by
  constructor
  · intro hall
    obtain ⟨i, h', e⟩ := hall Unit [.array [(), ()]] "10B" 10 none 0 (by simp)
    simp [new, Cell.truth] at e
  · intro hall
    have := hall Unit [.dict []] "10B" 10 none 0 ⟨"10B", 10, none, 1⟩ [.dict [], .list []] (by simp [new, Cell.truth])
    simp at this

theorem new_inv {h h' : Store σ} {AX : String} {amu : ℚ} {g : Option σ} {ex : Option ℕ} {i : Isotope σ}
    (e : new h AX amu g ex = .ok (i, h')) :
    i.AX = AX ∧ i.amu = amu ∧ i.ground = g ∧
      ((∃ r, ex = some r ∧ i.excited = r ∧ h' = h ∧ r < h.length) ∨ (i.excited = h.length ∧ h' = h ++ [.list []])) := by
  unfold new at e
  cases ex with
  | none =>
    simp only [Except.ok.injEq, Prod.mk.injEq] at e
    obtain ⟨rfl, rfl⟩ := e
    exact ⟨rfl, rfl, rfl, .inr ⟨rfl, rfl⟩⟩
  | some r =>
    simp only at e
    cases hr : h[r]? with
    | none => simp [hr] at e
    | some c =>
      have hlt : r < h.length := (List.getElem?_eq_some_iff.1 hr).1
      rw [hr] at e
      simp only at e
      cases ht : c.truth with
      | error x => simp [ht] at e
      | ok b =>
        cases b <;> simp only [ht, Except.ok.injEq, Prod.mk.injEq] at e <;> obtain ⟨rfl, rfl⟩ := e
        · exact ⟨rfl, rfl, rfl, .inr ⟨rfl, rfl⟩⟩
        · exact ⟨rfl, rfl, rfl, .inl ⟨r, rfl, rfl, rfl, hlt⟩⟩

/-- C115, the part that holds: an isotope keeps a list or dictionary with at least one state; without any, it gets a list of
its own: no container that existed before is changed or referred to. Missing: arrays and containers that are still empty. -/
theorem C115_partial (h : Store σ) (AX : String) (amu : ℚ) (g : Option σ) :
    (∀ r (xs : List σ), h[r]? = some (.list xs) → xs ≠ [] →
      ∃ i, new h AX amu g (some r) = .ok (i, h) ∧ i.excited = r ∧ i.AX = AX ∧ i.amu = amu ∧ i.ground = g) ∧
    (∀ r (xs : List (String × σ)), h[r]? = some (.dict xs) → xs ≠ [] →
      ∃ i, new h AX amu g (some r) = .ok (i, h) ∧ i.excited = r ∧ i.AX = AX ∧ i.amu = amu ∧ i.ground = g) ∧
    (∃ i h', new h AX amu g none = .ok (i, h') ∧ h <+: h' ∧ h.length ≤ i.excited ∧ h'[i.excited]? = some (.list []) ∧
      i.AX = AX ∧ i.amu = amu ∧ i.ground = g) := by
  refine ⟨fun r xs hr hx => ?_, fun r xs hr hx => ?_, ?_⟩
  · exact ⟨⟨AX, amu, g, r⟩, by cases xs <;> simp_all [new, Cell.truth], rfl, rfl, rfl, rfl⟩
  · exact ⟨⟨AX, amu, g, r⟩, by cases xs <;> simp_all [new, Cell.truth], rfl, rfl, rfl, rfl⟩
  · exact ⟨⟨AX, amu, g, h.length⟩, h ++ [.list []], rfl, List.prefix_append _ _, le_rfl, by simp, rfl, rfl, rfl⟩

theorem news_inv {as : List (String × ℚ × Option σ × Option ℕ)} : ∀ {h h' : Store σ} {is : List (Isotope σ)},
    (∀ a ∈ as, a.2.2.2 = none) → news h as = .ok (is, h') → h <+: h' ∧ (∀ i ∈ is, h.length ≤ i.excited) ∧
      (∀ i ∈ is, h'[i.excited]? = some (.list [])) ∧ is.Pairwise (fun i j => i.excited ≠ j.excited) := by
  induction as with
  | nil =>
    intro h h' is _ e
    simp only [news, Except.ok.injEq, Prod.mk.injEq] at e
    obtain ⟨rfl, rfl⟩ := e
    simp
  | cons a as ih =>
    obtain ⟨AX, amu, g, ex⟩ := a
    intro h h' is hn e
    obtain rfl : ex = none := hn _ (List.mem_cons_self)
    simp only [news, new, bind, Except.bind] at e
    cases e1 : news (h ++ [.list []]) as with
    | error x => simp [e1] at e
    | ok p =>
      obtain ⟨is', h2⟩ := p
      simp only [e1, Except.ok.injEq, Prod.mk.injEq] at e
      obtain ⟨rfl, rfl⟩ := e
      obtain ⟨p1, p2, p3, p4⟩ := ih (fun a ha => hn a (List.mem_cons_of_mem _ ha)) e1
      simp only [List.length_append, List.length_cons, List.length_nil, Nat.zero_add] at p2
      have h0 : h2[h.length]? = some (.list []) := by
        obtain ⟨t, rfl⟩ := p1
        simp
      refine ⟨(List.prefix_append _ _).trans p1, ?_, ?_, ?_⟩
      · intro i hi
        rcases List.mem_cons.1 hi with rfl | hi
        · exact le_rfl
        · have := p2 i hi; omega
      · intro i hi
        rcases List.mem_cons.1 hi with rfl | hi
        · exact h0
        · exact p3 i hi
      · refine List.pairwise_cons.2 ⟨fun j hj => ?_, p4⟩
        have := p2 j hj
        simp only [ne_eq]
        omega

/-- C115: isotopes constructed without excited states, in any number, do not share their lists: adding a state to one of
them leaves the lists of all others empty, and everything that existed before as it was. -/
theorem C115_own_list_partial {as : List (String × ℚ × Option σ × Option ℕ)} {h h' : Store σ} {is : List (Isotope σ)}
    (hn : ∀ a ∈ as, a.2.2.2 = none) (e : news h as = .ok (is, h')) {p : ℕ} (hp : p < is.length) (s : σ) :
    ∃ h'', append h' is[p] s = .ok h'' ∧ h <+: h'' ∧ h''[is[p].excited]? = some (.list [s]) ∧
      ∀ q, (hq : q < is.length) → q ≠ p → h''[is[q].excited]? = some (.list []) := by
  obtain ⟨p1, p2, p3, p4⟩ := news_inv hn e
  have hi := p3 _ (List.getElem_mem hp)
  have hlt := (List.getElem?_eq_some_iff.1 hi).1
  refine ⟨h'.set is[p].excited (.list [s]), by simp [append, hi], ?_, ?_, ?_⟩
  · obtain ⟨t, rfl⟩ := p1
    rw [List.set_append_right _ _ (p2 _ (List.getElem_mem hp))]
    exact List.prefix_append _ _
  · rw [List.getElem?_set_self hlt]
  · intro q hq hqp
    have hne : is[p].excited ≠ is[q].excited := by
      rcases lt_or_gt_of_ne hqp with hl | hl
      · exact (List.pairwise_iff_getElem.1 p4 q p hq hp hl).symm
      · exact List.pairwise_iff_getElem.1 p4 p q hp hq hl
    rw [List.getElem?_set_ne hne]
    exact p3 _ (List.getElem_mem hq)

/-- Two isotopes without states, next to an existing dictionary. -/
example : ∃ is h', news (σ := Unit) [.dict [("2+", ())]] [("10B", 10, none, none), ("11B", 11, some (), none)] = .ok (is, h') ∧
    is.length = 2 := ⟨_, _, rfl, rfl⟩

/-- ... and one with that dictionary. -/
example : ∃ i, new (σ := Unit) [.dict [("2+", ())]] "10B" 10 none (some 0) = .ok (i, [.dict [("2+", ())]]) ∧ i.excited = 0 :=
  ⟨_, rfl, rfl⟩

end Ries.Iso
