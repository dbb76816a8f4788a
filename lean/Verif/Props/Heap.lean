import Verif.Lemmas.Heap

/-!
# C04, C05: operators and object identity
-/

namespace Ries.Heap

open Ries

/-! ## C04 -/

/-- C04: whatever history of additions and multiplications is performed (successful or raising),
every object that existed before is the same object with the same contents afterwards: cross
sections, constants, weighted sums with their attributes, and the contents of every list. -/
theorem C04_frame (ops : List Op) (h : Store) : Ext h (runOps ops h) := by
  induction ops generalizing h with
  | nil => exact Ext.refl h
  | cons o ops ih =>
    refine Ext.trans ?_ (ih _)
    cases o with
    | add a b => exact (Frame.add (n := h.length) a b).ext
    | mul k a b => exact (Frame.mul (n := h.length) k a b).ext

/-- C04, observable effect: every value computed from an object that existed before a history of
operations is computed from it afterwards as well. -/
theorem C04_value (ops : List Op) {h : Store} {n : ℕ} {v : HVal} {o : Obj}
    (hv : reify n h v = some o) : reify n (runOps ops h) v = some o :=
  reify_mono (C04_frame ops h) le_rfl hv

/-- The operator `+` on objects with identity computes what the value-level model says: the same
exception, or an object that reads as the value-level sum. -/
theorem C04_add_value {n : ℕ} {h : Store} {a b : HVal} {oa ob : Obj}
    (ha : reify n h a = some oa) (hb : reify n h b = some ob) :
    (∀ v, (add a b h).1 = .ok v → ∃ o, Obj.add oa ob = .ok o ∧
      reify (n + 1) (add a b h).2 v = some o) ∧
    ∀ e, (add a b h).1 = .error e → Obj.add oa ob = .error e := by
  have := add_refines ha hb
  constructor
  · intro v hv
    simpa [Refines, hv] using this
  · intro e he
    simpa [Refines, he] using this

/-- The same for `*`, when the recursion limit exceeds the nesting depths. -/
theorem C04_mul_value {k n m : ℕ} {h : Store} {a b : HVal} {oa ob : Obj}
    (ha : reify n h a = some oa) (hb : reify m h b = some ob) (hk : n + m ≤ k + 1) :
    (∀ v, (mul k a b h).1 = .ok v → ∃ o, Obj.mul oa ob = .ok o ∧
      reify (n + m) (mul k a b h).2 v = some o) ∧
    ∀ e, (mul k a b h).1 = .error e → Obj.mul oa ob = .error e := by
  have := mul_refines k ha hb hk
  constructor
  · intro v hv
    simpa [Refines, hv] using this
  · intro e he
    simpa [Refines, he] using this

/-- a store with a constant cross section `1` (address 0) and the weighted sum `1 * that`
(address 3, lists at 1 and 2) -/
def exStore : Store := [.const 1, .list [.ref 0], .list [.num 1], .wsum 1 2]

example : reify 2 exStore (.ref 3) = some (.wsum [.const 1] [.num 1]) := by
  simp [reify, exStore]

example : reify 2 (runOps [.add (.ref 3) (.ref 0), .mul 5 (.num 2) (.ref 3), .add (.ref 3) (.ref 99)]
    exStore) (.ref 3) = some (.wsum [.const 1] [.num 1]) :=
  C04_value _ (by simp [reify, exStore])

/-! ## C05 -/

/-- C05, proved part: for every combination of operands except `CrossSection + WeightedSum`, the
sum does not change when lists that existed before the addition are edited in place, in any number
of ways, as long as the edited lists do not belong to one of the constituents themselves.  In
particular the operands' own reaction and scale-factor lists may be edited.
Missing for the full statement: the sum of a bare cross section and a weighted sum, for which it is
false (`C05_refuted`). -/
theorem C05_partial {n : ℕ} {h h' : Store} {a b v : HVal} {oa ob : Obj}
    (ha : reify n h a = some oa) (hb : reify n h b = some ob)
    (hnest : IsSum h b → IsSum h a ∨ ∃ x, a = .num x) (hadd : add a b h = (.ok v, h'))
    {es : List (ℕ × List HVal)}
    (hes : ∀ e ∈ es, e.1 < h.length ∧ ∀ x ∈ parts h a ++ parts h b, ¬ Reaches h x e.1) (m : ℕ) :
    reify m (edits h' es) v = reify m h' v := by
  rcases add_entries ha hb hnest hadd with ⟨x, rfl⟩ | ⟨rs, ss, hn, hall⟩
  · cases m <;> rfl
  · refine sum_independent ((Frame.add (n := h.length) a b).ext' hadd) hn hall (fun x hx => ?_) hes m
    rcases List.mem_append.1 hx with hx | hx
    · exact parts_reify ha hx
    · exact parts_reify hb hx

/-- the hypotheses of `C05_partial` are met by `w + c` with `w` of `exStore`, and an edit that
empties the reaction list of `w` -/
example : ∃ v h', add (.ref 3) (.num 5) exStore = (.ok v, h') ∧
    reify 3 h' v = some (.wsum [.const 1, .const 5] [.num 1, .num 1]) ∧
    reify 3 (edits h' [(1, [])]) v = some (.wsum [.const 1, .const 5] [.num 1, .num 1]) ∧
    reify 3 (edits h' [(1, [])]) (.ref 3) = some (.wsum [] [.num 1]) := by
  have e : add (.ref 3) (.num 5) exStore = (.ok (.ref 7),
      exStore ++ [.list [.ref 0, .ref 6], .list [.num 1, .num 1], .const 5, .wsum 4 5]) := by
    simp [add, objAdd, wsumAdd, copyLoop, newWsum, alloc, getCell, getList, append, exStore, bind_def,
      pure_def]
  refine ⟨_, _, e, by simp [reify, exStore], ?_, by simp [reify, exStore, edits, edit]⟩
  rw [C05_partial (n := 2) (by simp [reify, exStore]; rfl) (by simp [reify]; rfl)
    (fun h => .inl ⟨3, 1, 2, rfl, by simp [exStore]⟩) e (fun e he => ?_)]
  · simp [reify, exStore]
  · obtain rfl : e = (1, []) := by simpa using he
    refine ⟨by simp [exStore], fun x hx hr => ?_⟩
    have hx : x = .ref 0 ∨ x = .num 1 ∨ x = .num 5 := by simpa [parts, exStore] using hx
    rcases hx with rfl | rfl | rfl
    · cases hr with
      | reactions e => simp [exStore] at e
      | scales e => simp [exStore] at e
      | reaction e => simp [exStore] at e
      | scale e => simp [exStore] at e
    · cases hr
    · cases hr

/-- C05 for products: a cross section multiplied by a number (from either side) does not change when
lists that existed before are edited in place, as long as these do not belong to one of the
constituents themselves.  In particular the reaction and scale-factor lists of the operand may be
edited. -/
theorem C05_product {n k : ℕ} {h h' : Store} {a v : HVal} {x : ℝ} {oa : Obj}
    (ha : reify n h a = some oa) (hwf : Operand oa)
    (hmul : mul k (.num x) a h = (.ok v, h') ∨ mul k a (.num x) h = (.ok v, h'))
    {es : List (ℕ × List HVal)}
    (hes : ∀ e ∈ es, e.1 < h.length ∧ ∀ y ∈ parts h a, ¬ Reaches h y e.1) (m : ℕ) :
    reify m (edits h' es) v = reify m h' v := by
  have hss : ∀ rs ss, oa = .wsum rs ss → ∀ s ∈ ss, ∃ c, s = Obj.num c := by
    rintro rs ss rfl
    rcases hwf with ⟨c, hc⟩ | hw
    · cases hc
    · cases hw with
      | wsum _ _ _ hs _ => exact hs
  have hx : Ext h h' := by
    rcases hmul with e | e
    · exact (Frame.mul (n := h.length) k _ _).ext' e
    · exact (Frame.mul (n := h.length) k _ _).ext' e
  cases k with
  | zero => rcases hmul with e | e <;> simp [mul, throw] at e
  | succ k =>
    cases a with
    | num y =>
      have : v = .num (x * y) ∨ v = .num (y * x) := by
        rcases hmul with e | e
        · exact .inl (by simpa [mul, pure_def, eq_comm] using congrArg Prod.fst e)
        · exact .inr (by simpa [mul, pure_def, eq_comm] using congrArg Prod.fst e)
      rcases this with rfl | rfl <;> cases m <;> rfl
    | ref a =>
      obtain ⟨rs, ss, hn, hall⟩ := objMul_entries (numTimes_mul k x) ha hss (by
        rcases hmul with e | e <;> exact e)
      refine sum_independent hx hn (P := parts h (.ref a)) (fun y hy => ?_)
        (fun y hy => parts_reify ha hy) hes m
      rcases hall y hy with h1 | h1
      · exact .inl h1
      · exact .inr (.inr h1)

/-- the product `2 * w` for `w` of `exStore` keeps its value when the reaction list of `w` is emptied -/
example : ∃ v h', mul 5 (.num 2) (.ref 3) exStore = (.ok v, h') ∧
    reify 3 (edits h' [(1, []), (2, [.num 7])]) v = some (.wsum [.const 1] [.num 2]) := by
  have e : mul 5 (.num 2) (.ref 3) exStore = (.ok (.ref 6),
      exStore ++ [.list [.ref 0], .list [.num (2 * 1)], .wsum 4 5]) := by
    simp [mul, objMul, wsumMul, mulLoop, newWsum, alloc, getCell, getList, append, exStore, bind_def,
      pure_def]
  have hr : reify 2 exStore (.ref 3) = some (.wsum [.const 1] [.num 1]) := by simp [reify, exStore]
  refine ⟨_, _, e, ?_⟩
  rw [C05_product hr (.inr (.wsum _ _ (by
      intro r hr
      obtain rfl : r = .const 1 := by simpa using hr
      exact .const 1) (by simp) (by simp))) (.inl e) (fun e he => ?_)]
  · simp [reify, exStore]
  · have hlt : e.1 < exStore.length ∧ e.1 ≠ 0 := by
      rcases List.mem_cons.1 he with rfl | he
      · simp [exStore]
      · obtain rfl : e = (2, [.num 7]) := by simpa using he
        simp [exStore]
    refine ⟨hlt.1, fun x hx hr => ?_⟩
    have hne := hlt.2
    generalize e.1 = i at hr hne
    have hx : x = .ref 0 ∨ x = .num 1 := by simpa [parts, exStore] using hx
    rcases hx with rfl | rfl
    · cases hr with
      | self => exact hne rfl
      | reactions e => simp [exStore] at e
      | scales e => simp [exStore] at e
      | reaction e => simp [exStore] at e
      | scale e => simp [exStore] at e
    · cases hr

/-- C05 is false of the code: `crossSection + weightedSum` keeps a reference to the weighted sum, so
emptying the reaction list of the operand changes the value of the sum built before. -/
theorem C05_refuted :
    ¬ ∀ (n : ℕ) (h h' : Store) (a b v : HVal) (oa ob : Obj),
      reify n h a = some oa → reify n h b = some ob → add a b h = (.ok v, h') →
      ∀ es : List (ℕ × List HVal),
        (∀ e ∈ es, e.1 < h.length ∧ ∀ x ∈ parts h a ++ parts h b, ¬ Reaches h x e.1) →
        ∀ m E, (reify m (edits h' es) v).map (value · E) = (reify m h' v).map (value · E) := by
  intro hall
  have e : add (.ref 0) (.ref 3) exStore = (.ok (.ref 6),
      exStore ++ [.list [.ref 0, .ref 3], .list [.num 1, .num 1], .wsum 4 5]) := by
    simp [add, objAdd, csAdd, newWsum, alloc, getCell, getList, exStore, bind_def, pure_def]
  have h1 := hall 2 exStore _ (.ref 0) (.ref 3) (.ref 6) (.const 1) (.wsum [.const 1] [.num 1])
    (by simp [reify, exStore]) (by simp [reify, exStore]) e [(1, [])] (by
      intro e he
      obtain rfl : e = (1, []) := by simpa using he
      refine ⟨by simp [exStore], fun x hx hr => ?_⟩
      have hx : x = .ref 0 ∨ x = .num 1 := by simpa [parts, exStore] using hx
      rcases hx with rfl | rfl
      · cases hr with
        | reactions e => simp [exStore] at e
        | scales e => simp [exStore] at e
        | reaction e => simp [exStore] at e
        | scale e => simp [exStore] at e
      · cases hr) 4 0
  have r1 : reify 4 (edits (exStore ++ [.list [.ref 0, .ref 3], .list [.num 1, .num 1], .wsum 4 5])
      [(1, [])]) (.ref 6) = some (.wsum [.const 1, .wsum [] [.num 1]] [.num 1, .num 1]) := by
    simp [reify, exStore, edits, edit]
  have r2 : reify 4 (exStore ++ [.list [.ref 0, .ref 3], .list [.num 1, .num 1], .wsum 4 5])
      (.ref 6) = some (.wsum [.const 1, .wsum [.const 1] [.num 1]] [.num 1, .num 1]) := by
    simp [reify, exStore]
  rw [r1, r2] at h1
  simp [value, Obj.call, Obj.callLoop, Obj.mul, Obj.add, bind, Except.bind] at h1

end Ries.Heap
