import Verif.Props.Heap

/-! # Properties C05 (nested sums) and C152: weighted sums and the lists they were built from -/

namespace Ries.Heap

open Ries

/-- assigning to entries of lists never turns a weighted sum into something else -/
theorem edits_wsum {es : List (ℕ × List HVal)} {h : Store} {b r s : ℕ} (hb : h[b]? = some (.wsum r s)) :
    (edits h es)[b]? = some (.wsum r s) := by
  induction es generalizing h with
  | nil => exact hb
  | cons e es ih =>
    refine ih (h := edit h e.1 e.2) ?_
    by_cases hbe : b = e.1
    · subst hbe; simp [edit, hb]
    · rw [edit_get hbe, hb]

/-- … nor a list -/
theorem edits_list {es : List (ℕ × List HVal)} {h : Store} {b : ℕ} {xs : List HVal} (hb : h[b]? = some (.list xs)) :
    ∃ ys, (edits h es)[b]? = some (.list ys) := by
  induction es generalizing h xs with
  | nil => exact ⟨xs, hb⟩
  | cons e es ih =>
    by_cases hbe : b = e.1
    · subst hbe
      refine ih (h := edit h e.1 e.2) (xs := e.2) ?_
      simp [edit, hb, List.getElem?_set_self (getElem?_lt hb)]
    · exact ih (h := edit h e.1 e.2) (xs := xs) (by rw [edit_get hbe, hb])

/-- … nor a bare cross section -/
theorem edits_bare {es : List (ℕ × List HVal)} {h : Store} {b : ℕ} {c : Cell} (hb : h[b]? = some c)
    (hc : (∃ l, c = .leaf l) ∨ ∃ x, c = .const x) : (edits h es)[b]? = some c := by
  induction es generalizing h with
  | nil => exact hb
  | cons e es ih =>
    refine ih (h := edit h e.1 e.2) ?_
    by_cases hbe : b = e.1
    · subst hbe; rcases hc with ⟨l, rfl⟩ | ⟨x, rfl⟩ <;> simp [edit, hb]
    · rw [edit_get hbe, hb]

theorem value_two {a b : Obj} {E x y : ℝ} (ha : a.call E = .ok (.num x)) (hb : b.call E = .ok (.num y)) :
    value (.wsum [a, b] [.num 1, .num 1]) E = .ok (x + y) := by
  simp [value, Obj.call, Obj.callLoop, ha, hb, Obj.mul, Obj.add, bind, Except.bind]

/-- C05, the exceptional case: a bare cross section plus a weighted sum always shows the value of the bare cross section
plus the *current* value of the other operand (a weighted sum, in the case of interest), whatever lists are edited afterwards. -/
theorem C05_nested {h h' : Store} {a b : ℕ} {c : Cell} {v : HVal} (ha : h[a]? = some c)
    (hc : (∃ l, c = .leaf l) ∨ ∃ x, c = .const x)
    (hadd : add (.ref a) (.ref b) h = (.ok v, h')) {es : List (ℕ × List HVal)} (hes : ∀ e ∈ es, e.1 < h.length)
    {m : ℕ} {ob : Obj} (hob : reify m (edits h' es) (.ref b) = some ob) :
    ∃ oa o, reify 1 h (.ref a) = some oa ∧ reify (m + 1) (edits h' es) v = some o ∧
      ∀ E x y, oa.call E = .ok (.num x) → ob.call E = .ok (.num y) → value o E = .ok (x + y) := by
  obtain ⟨k, rfl⟩ := reify_pos hob
  have e : csAdd a (.ref b) h = (.ok v, h') := by
    rcases hc with ⟨l, rfl⟩ | ⟨x, rfl⟩ <;>
      simpa [add, objAdd, getCell, ha, bind_def] using hadd
  have e' : csAdd a (.ref b) h = (.ok (.ref (h.length + 2)),
      h ++ [.list [.ref a, .ref b], .list [.num 1, .num 1], .wsum h.length (h.length + 1)]) := by
    simp [csAdd, newWsum, alloc, getList, bind_def, pure_def]
  rw [e'] at e
  obtain ⟨rfl, rfl⟩ : v = .ref (h.length + 2) ∧
      h' = h ++ [.list [.ref a, .ref b], .list [.num 1, .num 1], .wsum h.length (h.length + 1)] := by
    simp only [Prod.mk.injEq, Except.ok.injEq] at e
    exact ⟨e.1.symm, e.2.symm⟩
  set h' := h ++ [.list [.ref a, .ref b], .list [.num 1, .num 1], .wsum h.length (h.length + 1)] with hh
  have c1 : (edits h' es)[h.length + 2]? = some (.wsum h.length (h.length + 1)) := edits_wsum (by simp [hh])
  have c2 : (edits h' es)[h.length]? = some (.list [.ref a, .ref b]) := by
    rw [edits_get fun e he => (hes e he).ne']; simp [hh]
  have c3 : (edits h' es)[h.length + 1]? = some (.list [.num 1, .num 1]) := by
    rw [edits_get fun e he => by have := hes e he; omega]; simp [hh]
  have ca : (edits h' es)[a]? = some c := edits_bare (by rw [hh, List.getElem?_append_left (getElem?_lt ha), ha]) hc
  obtain ⟨oa, h1, h2⟩ : ∃ oa, reify 1 h (.ref a) = some oa ∧ reify (k + 1) (edits h' es) (.ref a) = some oa := by
    rcases hc with ⟨l, rfl⟩ | ⟨x, rfl⟩
    · exact ⟨.leaf l, by simp [reify, ha], by simp [reify, ca]⟩
    · exact ⟨.const x, by simp [reify, ha], by simp [reify, ca]⟩
  refine ⟨oa, .wsum [oa, ob] [.num 1, .num 1], h1, ?_, fun E x y hx hy => value_two hx hy⟩
  rw [reify_wsum_iff c1 c2 c3]
  exact ⟨_, _, rfl, .cons h2 (.cons hob .nil), .cons rfl (.cons rfl .nil)⟩

example : ∃ v h', add (.ref 0) (.ref 3) exStore = (.ok v, h') ∧
    reify 2 (edits h' [(2, [.num 7])]) (.ref 3) = some (.wsum [.const 1] [.num 7]) := by
  refine ⟨_, _, by
    simp [add, objAdd, csAdd, newWsum, alloc, getCell, getList, exStore, bind_def, pure_def]
    exact ⟨rfl, rfl⟩, ?_⟩
  simp [reify, edits, edit]

/-! ## C152 -/

/-- C152, exact: a weighted sum built from the lists `r` (not empty) and `s` always reads the current contents of these
lists, whatever edits were made since. -/
theorem C152_exact {h h' : Store} {r s : ℕ} {x : HVal} {xs ss : List HVal} {v : HVal} (hr : h[r]? = some (.list (x :: xs)))
    (hs : h[s]? = some (.list ss)) (hnew : newWsum r s h = (.ok v, h')) (es : List (ℕ × List HVal)) :
    ∃ rs' ss', (edits h' es)[r]? = some (.list rs') ∧ (edits h' es)[s]? = some (.list ss') ∧
      ∀ m o, reify (m + 1) (edits h' es) v = some o ↔ ∃ rs ss, o = .wsum rs ss ∧
        List.Forall₂ (fun x y => reify m (edits h' es) x = some y) rs' rs ∧
        List.Forall₂ (fun x y => reify m (edits h' es) x = some y) ss' ss := by
  have e : newWsum r s h = (.ok (.ref h.length), h ++ [.wsum r s]) := by
    simp [newWsum, getList, hr, alloc, bind_def, pure_def]
  rw [e] at hnew
  simp only [Prod.mk.injEq, Except.ok.injEq] at hnew
  obtain ⟨rfl, rfl⟩ := hnew
  obtain ⟨rs', h1⟩ := edits_list (es := es) (h := h ++ [.wsum r s])
    (by rw [List.getElem?_append_left (getElem?_lt hr), hr])
  obtain ⟨ss', h2⟩ := edits_list (es := es) (h := h ++ [.wsum r s])
    (by rw [List.getElem?_append_left (getElem?_lt hs), hs])
  exact ⟨rs', ss', h1, h2, fun m o => reify_wsum_iff (edits_wsum (by simp)) h1 h2⟩

/-- C152 is false: emptying the list of reactions that was passed to the constructor makes the weighted sum vanish at
every energy, whatever its value was. -/
theorem C152_refuted {h h' : Store} {r s : ℕ} {x : HVal} {xs ss : List HVal} {v : HVal} {n : ℕ} {o : Obj}
    (hrs : r ≠ s) (hr : h[r]? = some (.list (x :: xs))) (hs : h[s]? = some (.list ss))
    (hss : ∀ x ∈ ss, ∃ c, x = .num c) (hnew : newWsum r s h = (.ok v, h')) (hv : reify n h' v = some o) :
    ∃ o', reify n (edits h' [(r, [])]) v = some o' ∧ ∀ E, value o' E = .ok 0 := by
  obtain ⟨k, rfl⟩ := reify_pos hv
  obtain ⟨rs', ss', h1, h2, hread⟩ := C152_exact hr hs hnew [(r, [])]
  have e : newWsum r s h = (.ok (.ref h.length), h ++ [.wsum r s]) := by
    simp [newWsum, getList, hr, alloc, bind_def, pure_def]
  rw [e] at hnew
  simp only [Prod.mk.injEq, Except.ok.injEq] at hnew
  obtain ⟨rfl, rfl⟩ := hnew
  have hr' : (h ++ [.wsum r s])[r]? = some (.list (x :: xs)) := by
    rw [List.getElem?_append_left (getElem?_lt hr), hr]
  have hs' : (h ++ [.wsum r s])[s]? = some (.list ss) := by
    rw [List.getElem?_append_left (getElem?_lt hs), hs]
  have h1' : (edits (h ++ [.wsum r s]) [(r, [])])[r]? = some (.list []) := by
    simp [edits, edit, hr', List.getElem?_set_self (getElem?_lt hr')]
  rw [h1'] at h1
  have h2' : (edits (h ++ [.wsum r s]) [(r, [])])[s]? = some (.list ss) := by
    rw [edits_get fun e he => ?_, hs']
    obtain rfl : e = (r, []) := by simpa using he
    exact hrs.symm
  rw [h2'] at h2
  cases h1
  cases h2
  obtain ⟨rs0, ss0, -, -, f2⟩ := (reify_wsum_iff (by simp) hr' hs').1 hv
  refine ⟨.wsum [] ss0, (hread k _).2 ⟨[], ss0, rfl, .nil, ?_⟩, fun E => by simp [value, Obj.call, Obj.callLoop]⟩
  clear hs hs' h2' hread
  induction f2 with
  | nil => exact .nil
  | @cons a b l l' hab _ ih =>
    refine .cons ?_ (ih fun x hx => hss x (by simp [hx]))
    obtain ⟨c, rfl⟩ := hss a (by simp)
    cases k with
    | zero => simp [reify] at hab
    | succ k => exact hab

/-- C152 (partial): edits of other lists do not matter; and a weighted sum built from an empty list of reactions is not
connected to that list: it is zero at every energy for ever. Missing: independence of the two lists passed
(`C152_refuted`). -/
theorem C152_partial {h h' : Store} {r s : ℕ} {rs ss : List HVal} {v : HVal} (hr : h[r]? = some (.list rs))
    (hs : h[s]? = some (.list ss)) (hnew : newWsum r s h = (.ok v, h')) (es : List (ℕ × List HVal)) :
    (rs ≠ [] → (∀ e ∈ es, e.1 ≠ r ∧ e.1 ≠ s ∧ ∀ x ∈ rs ++ ss, ¬ Reaches h' x e.1) → ∀ m,
      reify m (edits h' es) v = reify m h' v) ∧
    (rs = [] → (∀ e ∈ es, e.1 < h.length) → ∀ m o, reify m (edits h' es) v = some o → ∀ E, value o E = .ok 0) := by
  constructor
  · intro hne hes m
    obtain ⟨x, xs, rfl⟩ := List.exists_cons_of_ne_nil hne
    have e : newWsum r s h = (.ok (.ref h.length), h ++ [.wsum r s]) := by
      simp [newWsum, getList, hr, alloc, bind_def, pure_def]
    rw [e] at hnew
    simp only [Prod.mk.injEq, Except.ok.injEq] at hnew
    obtain ⟨rfl, rfl⟩ := hnew
    have hw : (h ++ [Cell.wsum r s])[h.length]? = some (.wsum r s) := by simp
    have hr' : (h ++ [Cell.wsum r s])[r]? = some (.list (x :: xs)) := by
      rw [List.getElem?_append_left (getElem?_lt hr), hr]
    have hs' : (h ++ [Cell.wsum r s])[s]? = some (.list ss) := by
      rw [List.getElem?_append_left (getElem?_lt hs), hs]
    refine reify_congr fun b hb => ?_
    cases hb with
    | self => rw [edits_wsum hw, hw]
    | reactions e =>
      rw [hw] at e; cases e
      exact edits_get fun e he => (hes e he).1.symm
    | scales e =>
      rw [hw] at e; cases e
      exact edits_get fun e he => (hes e he).2.1.symm
    | reaction e e2 hx hb =>
      rw [hw] at e; cases e; rw [hr'] at e2; cases e2
      exact edits_get fun e he hbe => (hes e he).2.2 _ (List.mem_append_left _ hx) (hbe ▸ hb)
    | scale e e2 hx hb =>
      rw [hw] at e; cases e; rw [hs'] at e2; cases e2
      exact edits_get fun e he hbe => (hes e he).2.2 _ (List.mem_append_right _ hx) (hbe ▸ hb)
  · rintro rfl hes m o ho E
    have e : newWsum r s h = (.ok (.ref (h.length + 1)), h ++ [.list [], .wsum h.length s]) := by
      simp [newWsum, getList, hr, alloc, bind_def, pure_def]
    rw [e] at hnew
    simp only [Prod.mk.injEq, Except.ok.injEq] at hnew
    obtain ⟨rfl, rfl⟩ := hnew
    obtain ⟨k, rfl⟩ := reify_pos ho
    have c1 : (edits (h ++ [.list [], .wsum h.length s]) es)[h.length + 1]? = some (.wsum h.length s) :=
      edits_wsum (by simp)
    have c2 : (edits (h ++ [.list [], .wsum h.length s]) es)[h.length]? = some (.list []) := by
      rw [edits_get fun e he => (hes e he).ne']; simp
    obtain ⟨ss', c3⟩ := edits_list (es := es) (h := h ++ [.list [], .wsum h.length s])
      (by rw [List.getElem?_append_left (getElem?_lt hs), hs])
    obtain ⟨rs', ss', rfl, f1, -⟩ := (reify_wsum_iff c1 c2 c3).1 ho
    cases f1
    simp [value, Obj.call, Obj.callLoop]

/-- lists `[c]` and `[1.0]` of a user, and what becomes of the sum when the second is changed to `[7.0]` -/
example : ∃ v h', newWsum 1 2 exStore = (.ok v, h') ∧ reify 2 h' v = some (.wsum [.const 1] [.num 1]) ∧
    reify 2 (edits h' [(2, [.num 7])]) v = some (.wsum [.const 1] [.num 7]) ∧
    exStore[1]? = some (.list [.ref 0]) ∧ exStore[2]? = some (.list [.num 1]) := by
  refine ⟨_, _, by simp [newWsum, alloc, getList, exStore, bind_def, pure_def]; exact ⟨rfl, rfl⟩, ?_, ?_, rfl, rfl⟩
  · simp [reify]
  · simp [reify, edits, edit]

end Ries.Heap
