import Verif.Props.CrossSection

/-! # Exact conditions for C06 and C09 -/

namespace Ries

open Obj

/-- The scale factor of every reaction is a number, also inside of nested sums. -/
inductive NumberScales : Obj → Prop
  | leaf (l : Leaf) : NumberScales (.leaf l)
  | const (c : ℝ) : NumberScales (.const c)
  | wsum (rs ss : List Obj) (hs : ∀ (i : ℕ) (r s : Obj), rs[i]? = some r → ss[i]? = some s → ∃ c, s = Obj.num c)
      (hr : ∀ (i : ℕ) (r s : Obj), rs[i]? = some r → ss[i]? = some s → NumberScales r) : NumberScales (.wsum rs ss)

theorem mul_isNum {a b p : Obj} (h : Obj.mul a b = .ok p) : (∃ x, p = .num x) ↔ (∃ x, a = .num x) ∧ ∃ y, b = .num y := by
  cases a with
  | num x =>
    cases b with
    | num y => simp [Obj.mul] at h; subst h; simp
    | leaf l => simp [Obj.mul] at h; subst h; simp
    | const c => simp [Obj.mul] at h; subst h; simp
    | wsum rs ss =>
      rw [Obj.mul] at h
      cases hl : mulLoop (.num x) rs ss with
      | error e => simp [hl, Except.map] at h
      | ok l => simp [hl, Except.map] at h; subst h; simp
  | leaf l => simp [Obj.mul] at h; subst h; simp
  | const c => simp [Obj.mul] at h; subst h; simp
  | wsum rs ss =>
    rw [Obj.mul] at h
    cases hl : mulLoop b rs ss with
    | error e => simp [hl, Except.map] at h
    | ok l => simp [hl, Except.map] at h; subst h; simp

theorem wsumAdd_wsum {rs ss : List Obj} {b p : Obj} (h : wsumAdd rs ss b = .ok p) : ∃ rs' ss', p = .wsum rs' ss' := by
  unfold wsumAdd at h
  cases h1 : pairScales rs ss with
  | error e => simp [h1, bind, Except.bind] at h
  | ok l =>
    simp only [h1, bind, Except.bind] at h
    cases b with
    | num y => simp at h; exact ⟨_, _, h.symm⟩
    | leaf y => simp at h; exact ⟨_, _, h.symm⟩
    | const y => simp at h; exact ⟨_, _, h.symm⟩
    | wsum rs2 ss2 =>
      simp only at h
      cases h2 : pairScales rs2 ss2 with
      | error e => simp [h2] at h
      | ok l => simp [h2] at h; exact ⟨_, _, h.symm⟩

theorem csAdd_wsum (a b : Obj) : ∃ rs' ss', csAdd a b = .wsum rs' ss' := by
  cases b <;> exact ⟨_, _, rfl⟩

theorem add_isNum {a b p : Obj} (h : Obj.add a b = .ok p) : (∃ x, p = .num x) ↔ (∃ x, a = .num x) ∧ ∃ y, b = .num y := by
  have wsum : (∃ rs' ss', p = .wsum rs' ss') → ¬ ∃ x, p = .num x := by
    rintro ⟨rs', ss', rfl⟩; simp
  cases a with
  | num x =>
    cases b with
    | num y => simp [Obj.add] at h; subst h; simp
    | leaf l => simp [Obj.add] at h; subst h; simp [csAdd]
    | const c => simp [Obj.add] at h; subst h; simp [csAdd]
    | wsum rs ss =>
      simp only [Obj.add] at h
      simp [wsum (wsumAdd_wsum h)]
  | leaf l =>
    simp only [Obj.add, Except.ok.injEq] at h
    have := csAdd_wsum (.leaf l) b
    rw [h] at this
    simp [wsum this]
  | const c =>
    simp only [Obj.add, Except.ok.injEq] at h
    have := csAdd_wsum (.const c) b
    rw [h] at this
    simp [wsum this]
  | wsum rs ss =>
    simp only [Obj.add] at h
    simp [wsum (wsumAdd_wsum h)]

mutual
theorem call_isNum : ∀ (o : Obj) (E : ℝ) (v : Obj), o.call E = .ok v → ((∃ x, v = .num x) ↔ NumberScales o)
  | .num _, _, _, h => by simp [call] at h
  | .leaf l, E, v, h => by
    rw [call] at h
    cases hl : l.eval E with
    | error e => simp [hl, Except.map] at h
    | ok x => simp [hl, Except.map] at h; subst h; simp [NumberScales.leaf]
  | .const c, E, v, h => by simp [call] at h; subst h; simp [NumberScales.const]
  | .wsum rs ss, E, v, h => by
    rw [call] at h
    rw [callLoop_isNum rs ss (.num 0) E v h]
    constructor
    · rintro ⟨-, h⟩; exact .wsum rs ss (fun i r s h1 h2 => (h i r s h1 h2).1) (fun i r s h1 h2 => (h i r s h1 h2).2)
    · intro h; cases h with | wsum _ _ hs hr => exact ⟨⟨0, rfl⟩, fun i r s h1 h2 => ⟨hs i r s h1 h2, hr i r s h1 h2⟩⟩

theorem callLoop_isNum : ∀ (rs ss : List Obj) (acc : Obj) (E : ℝ) (v : Obj), callLoop rs ss acc E = .ok v → ((∃ x, v = .num x) ↔
    (∃ x, acc = .num x) ∧ ∀ (i : ℕ) (r s : Obj), rs[i]? = some r → ss[i]? = some s → (∃ c, s = Obj.num c) ∧ NumberScales r)
  | [], ss, acc, E, v, h => by simp [callLoop] at h; subst h; simp
  | r :: rs, [], acc, E, v, h => by simp [callLoop] at h
  | r :: rs, s :: ss, acc, E, v, h => by
    rw [callLoop] at h
    cases h1 : call r E with
    | error e => simp [h1, bind, Except.bind] at h
    | ok x =>
      cases h2 : Obj.mul s x with
      | error e => simp [h1, h2, bind, Except.bind] at h
      | ok p =>
        cases h3 : Obj.add acc p with
        | error e => simp [h1, h2, h3, bind, Except.bind] at h
        | ok acc' =>
          simp only [h1, h2, h3, bind, Except.bind] at h
          rw [callLoop_isNum rs ss acc' E v h, add_isNum h3, mul_isNum h2, call_isNum r E x h1]
          constructor
          · rintro ⟨⟨ha, hs, hr⟩, hi⟩
            refine ⟨ha, fun i r' s' k1 k2 => ?_⟩
            cases i with
            | zero => simp at k1 k2; subst k1 k2; exact ⟨hs, hr⟩
            | succ i => exact hi i r' s' (by simpa using k1) (by simpa using k2)
          · rintro ⟨ha, hi⟩
            obtain ⟨hs, hr⟩ := hi 0 r s rfl rfl
            exact ⟨⟨ha, hs, hr⟩, fun i r' s' k1 k2 => hi (i + 1) r' s' (by simpa using k1) (by simpa using k2)⟩
end

/-- C09, exact condition: a cross section that can be called returns a number if and only if all its scale factors are numbers,
also those of nested sums. -/
theorem C09_number_iff {o : Obj} {E : ℝ} {v : Obj} (h : o.call E = .ok v) : (∃ x, v = .num x) ↔ NumberScales o := call_isNum o E v h

/-- Both sides occur: a sum, and a product of two cross sections. -/
example : (∃ v, (Obj.wsum [.leaf exLeaf, .const 1] [.num 2, .num 3]).call 3 = .ok v) ∧ NumberScales (.wsum [.leaf exLeaf, .const 1] [.num 2, .num 3]) ∧
    (∃ v, (Obj.wsum [.leaf exLeaf] [.leaf exLeaf]).call 3 = .ok v) ∧ ¬ NumberScales (.wsum [.leaf exLeaf] [.leaf exLeaf]) := by
  refine ⟨⟨_, by simp [call, callLoop, Obj.mul, Obj.add, exLeaf, bind, Except.bind, Except.map]; rfl⟩, .wsum _ _ ?_ ?_,
    ⟨.wsum [.leaf exLeaf, .const 0] [.num 3, .num 1], by
      simp [call, callLoop, Obj.mul, Obj.add, wsumAdd, pairScales, exLeaf, bind, Except.bind, Except.map]⟩, ?_⟩
  · intro i r s h1 h2
    match i with
    | 0 => simp at h1 h2; subst h1 h2; exact ⟨2, rfl⟩
    | 1 => simp at h1 h2; subst h1 h2; exact ⟨3, rfl⟩
    | i + 2 => simp at h1
  · intro i r s h1 h2
    match i with
    | 0 => simp at h1 h2; subst h1 h2; exact .leaf _
    | 1 => simp at h1 h2; subst h1 h2; exact .const _
    | i + 2 => simp at h1
  · intro h
    cases h with
    | wsum _ _ h => obtain ⟨c, hc⟩ := h 0 _ _ rfl rfl; simp at hc

mutual
theorem callArr_scalar : ∀ (o : Obj) (Es : List ℝ) (v : Val), o.callArr Es = .ok v → ¬ Varies o → ∃ x, v = .sc x
  | .num _, _, _, h, _ => by simp [callArr] at h
  | .leaf l, _, _, _, hn => absurd (.leaf l) hn
  | .const c, Es, v, h, _ => by simp [callArr] at h; exact ⟨c, h.symm⟩
  | .wsum rs ss, Es, v, h, hn => by
    rw [callArr] at h
    exact callArrLoop_scalar rs ss (.sc 0) Es v h (fun r hr hv => hn (.wsum hr hv)) ⟨0, rfl⟩

theorem callArrLoop_scalar : ∀ (rs ss : List Obj) (acc : Val) (Es : List ℝ) (v : Val), callArrLoop rs ss acc Es = .ok v →
    (∀ r ∈ rs, ¬ Varies r) → (∃ x, acc = .sc x) → ∃ x, v = .sc x
  | [], ss, acc, Es, v, h, _, ha => by simp [callArrLoop] at h; subst h; exact ha
  | r :: rs, [], acc, Es, v, h, _, _ => by simp [callArrLoop] at h
  | r :: rs, .num c :: ss, acc, Es, v, h, hn, ⟨a, ha⟩ => by
    rw [callArrLoop] at h
    cases h1 : callArr r Es with
    | error e => simp [h1, bind, Except.bind] at h
    | ok x =>
      obtain ⟨y, rfl⟩ := callArr_scalar r Es x h1 (hn r (by simp))
      subst ha
      simp only [h1, bind, Except.bind, Val.scale, Val.add] at h
      exact callArrLoop_scalar rs ss _ Es v h (fun r' hr' => hn r' (by simp [hr'])) ⟨_, rfl⟩
  | r :: rs, .leaf l :: ss, acc, Es, v, h, _, _ => by simp [callArrLoop] at h
  | r :: rs, .const l :: ss, acc, Es, v, h, _, _ => by simp [callArrLoop] at h
  | r :: rs, .wsum l l' :: ss, acc, Es, v, h, _, _ => by simp [callArrLoop] at h
end

/-- C06, exact condition: the value of a sum on an array is an array of the same length if and only if some constituent of the sum, or of a nested
sum, is not a constant; otherwise it is a number. -/
theorem C06_array_shape_iff (rs ss : List Obj) (h : WF (.wsum rs ss)) (Es : List ℝ) (he : ∀ E ∈ Es, Evaluable E (.wsum rs ss)) :
    ∃ v, (Obj.wsum rs ss).callArr Es = .ok v ∧ (v.hasLen Es.length ↔ Varies (.wsum rs ss)) ∧
      (¬ Varies (.wsum rs ss) → ∃ x, v = .sc x) := by
  obtain ⟨v, h1, -, h3, -⟩ := callArr_spec h Es he
  have hs := callArr_scalar _ Es v h1
  refine ⟨v, h1, ⟨fun hl => ?_, h3⟩, hs⟩
  by_contra hn
  obtain ⟨x, rfl⟩ := hs hn
  exact hl

/-- A nested sum of constants meets the hypotheses. -/
example : WF (.wsum [.wsum [.const 1] [.num 1]] [.num 2]) ∧ (∀ E ∈ [(1 : ℝ), 2], Evaluable E (.wsum [.wsum [.const 1] [.num 1]] [.num 2])) := by
  have h1 : WF (.wsum [.const 1] [.num 1]) := (mul_single 1 (.const 1)).1
  refine ⟨.wsum _ _ (by simpa using h1) (by simp) (by simp), fun E _ => .wsum _ _ ?_⟩
  intro r hr
  simp only [List.mem_singleton] at hr
  subst hr
  exact .wsum _ _ (by intro r hr; simp only [List.mem_singleton] at hr; subst hr; exact .const 1)

end Ries
