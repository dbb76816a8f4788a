import Verif.Spec.CrossSection
import Mathlib.Tactic.Ring
import Mathlib.Tactic.Linarith

namespace Ries
open Obj

/-- weighted sum of values, defined by recursion on both lists -/
def wval : List Obj → List Obj → ℝ → Except Err ℝ
  | [], _, _ => .ok 0
  | _ :: _, [], _ => .error .indexError
  | r :: rs, s :: ss, E => do
      let v ← value r E
      match s with
      | .num c => do
          let w ← wval rs ss E
          .ok (c * v + w)
      | _ => .error .typeError

theorem WF.not_num {o : Obj} (h : WF o) (c : ℝ) : o ≠ .num c := by
  cases h <;> simp

theorem mul_num_num (x y : ℝ) : mul (.num x) (.num y) = .ok (.num (x * y)) := by
  simp [mul]

/-- On well-formed objects `call` returns a number (or raises), and that number is `value`. -/
theorem call_eq_value : ∀ (o : Obj), WF o → ∀ E, o.call E = (value o E).map .num := by
  intro o h
  induction h with
  | leaf l => intro E; simp [value, call]; cases l.eval E <;> rfl
  | const c => intro E; simp [value, call]; rfl
  | wsum rs ss hr hs hl ih =>
    intro E
    have key : ∀ (rs ss : List Obj), (∀ r ∈ rs, WF r) → (∀ s ∈ ss, ∃ c, s = .num c) →
        rs.length ≤ ss.length → (∀ r ∈ rs, ∀ E, r.call E = (value r E).map .num) →
        ∀ acc, callLoop rs ss (.num acc) E = (wval rs ss E).map (fun w => .num (acc + w)) := by
      intro rs
      induction rs with
      | nil => intro ss _ _ _ _ acc; simp [callLoop, wval, Except.map]
      | cons r rs IH =>
        intro ss hr hs hl hc acc
        cases ss with
        | nil => simp at hl
        | cons s ss =>
          obtain ⟨c, rfl⟩ := hs s (by simp)
          simp only [callLoop, wval]
          rw [hc r (by simp)]
          cases hv : value r E with
          | error e => rfl
          | ok v =>
            show (do let p ← mul (.num c) (.num v); let acc' ← add (.num acc) p; callLoop rs ss acc' E) = _
            rw [mul_num_num]
            show callLoop rs ss (.num (acc + c * v)) E = _
            rw [IH ss (fun r h => hr r (by simp [h])) (fun s h => hs s (by simp [h]))
              (by simpa using hl) (fun r h => hc r (by simp [h]))]
            show _ = Except.map _ (do let w ← wval rs ss E; Except.ok (c * v + w))
            cases wval rs ss E with
            | error e => rfl
            | ok w => simp [Except.map, bind, Except.bind]; ring
    have h1 := key rs ss hr hs hl ih 0
    simp only [value, call, h1]
    cases wval rs ss E <;> rfl

theorem value_wsum {rs ss : List Obj} (h : WF (.wsum rs ss)) (E : ℝ) :
    value (.wsum rs ss) E = wval rs ss E := by
  have key : ∀ (rs ss : List Obj), (∀ r ∈ rs, WF r) → (∀ s ∈ ss, ∃ c, s = .num c) →
        rs.length ≤ ss.length → 
        ∀ acc, callLoop rs ss (.num acc) E = (wval rs ss E).map (fun w => .num (acc + w)) := by
      intro rs
      induction rs with
      | nil => intro ss _ _ _ acc; simp [callLoop, wval, Except.map]
      | cons r rs IH =>
        intro ss hr hs hl acc
        cases ss with
        | nil => simp at hl
        | cons s ss =>
          obtain ⟨c, rfl⟩ := hs s (by simp)
          simp only [callLoop, wval]
          rw [call_eq_value r (hr r (by simp))]
          cases hv : value r E with
          | error e => rfl
          | ok v =>
            show (do let p ← mul (.num c) (.num v); let acc' ← add (.num acc) p; callLoop rs ss acc' E) = _
            rw [mul_num_num]
            show callLoop rs ss (.num (acc + c * v)) E = _
            rw [IH ss (fun r h => hr r (by simp [h])) (fun s h => hs s (by simp [h]))
              (by simpa using hl)]
            show _ = Except.map _ (do let w ← wval rs ss E; Except.ok (c * v + w))
            cases wval rs ss E with
            | error e => rfl
            | ok w => simp [Except.map, bind, Except.bind]; ring
  cases h with
  | wsum _ _ hr hs hl =>
    simp only [value, call, key rs ss hr hs hl 0]
    cases wval rs ss E with
    | error e => rfl
    | ok w => simp [Except.map]

theorem pairScales_ok {rs ss : List Obj} (h : rs.length ≤ ss.length) :
    pairScales rs ss = .ok (ss.take rs.length) := by
  induction rs generalizing ss with
  | nil => simp [pairScales]
  | cons r rs ih =>
    cases ss with
    | nil => simp at h
    | cons s ss => simp [pairScales, ih (by simpa using h), Except.map]

theorem wval_append {rs ss rs2 ss2 : List Obj} (h : rs.length = ss.length) (E : ℝ)
    (hs : ∀ s ∈ ss, ∃ c, s = Obj.num c) :
    wval (rs ++ rs2) (ss ++ ss2) E =
      (do let x ← wval rs ss E; let y ← wval rs2 ss2 E; .ok (x + y)) := by
  induction rs generalizing ss with
  | nil =>
    cases ss with
    | nil => simp [wval, bind, Except.bind]; cases wval rs2 ss2 E <;> rfl
    | cons => simp at h
  | cons r rs ih =>
    cases ss with
    | nil => simp at h
    | cons s ss =>
      obtain ⟨c, rfl⟩ := hs s (by simp)
      simp only [List.cons_append, wval]
      cases value r E with
      | error e => rfl
      | ok v =>
        simp only [bind, Except.bind]
        rw [ih (by simpa using h) (fun s h => hs s (by simp [h]))]
        cases wval rs ss E with
        | error e => rfl
        | ok x =>
          simp only [bind, Except.bind]
          cases wval rs2 ss2 E with
          | error e => rfl
          | ok y => simp; ring

theorem wval_take {rs ss : List Obj} (h : rs.length ≤ ss.length) (E : ℝ) :
    wval rs (ss.take rs.length) E = wval rs ss E := by
  induction rs generalizing ss with
  | nil => simp [wval]
  | cons r rs ih =>
    cases ss with
    | nil => simp at h
    | cons s ss => simp only [List.length_cons, List.take_succ_cons, wval, ih (by simpa using h : rs.length ≤ ss.length)]

theorem wval_two (a b : Obj) (E : ℝ) :
    wval [a, b] [.num 1, .num 1] E = (do let x ← value a E; let y ← value b E; .ok (x + y)) := by
  simp only [wval]
  cases value a E with
  | error e => rfl
  | ok x =>
    cases value b E with
    | error e => rfl
    | ok y => simp [bind, Except.bind]

theorem wval_one (a : Obj) (c E : ℝ) :
    wval [a] [.num c] E = (do let x ← value a E; .ok (c * x)) := by
  simp only [wval]
  cases value a E with
  | error e => rfl
  | ok x => simp [bind, Except.bind]

theorem wf_two {a b : Obj} (ha : WF a) (hb : WF b) : WF (.wsum [a, b] [.num 1, .num 1]) := by
  refine .wsum _ _ ?_ ?_ (by simp)
  · intro r hr; simp at hr; rcases hr with rfl | rfl <;> assumption
  · intro s hs; simp at hs; exact ⟨1, hs⟩

theorem value_const (c E : ℝ) : value (.const c) E = .ok c := by simp [value, call]
theorem value_num (c E : ℝ) : value (.num c) E = .ok c := rfl

theorem bind_comm_ok (x : Except Err ℝ) (c : ℝ) :
    (do let a ← x; let b ← (Except.ok c : Except Err ℝ); .ok (a + b) : Except Err ℝ) =
    (do let b ← (Except.ok c : Except Err ℝ); let a ← x; .ok (b + a)) := by
  cases x with
  | error e => rfl
  | ok v => simp [bind, Except.bind]; ring

/-- left operand a weighted sum -/
theorem wsumAdd_spec {rs ss : List Obj} {b : Obj} (ha : WF (.wsum rs ss)) (hb : Operand b) :
    ∃ s, wsumAdd rs ss b = .ok s ∧ WF s ∧ ∀ E, value s E =
      (do let x ← value (.wsum rs ss) E; let y ← value b E; .ok (x + y)) := by
  have ha' := ha
  cases ha with
  | wsum _ _ hr hs hl =>
  have hs' : ∀ s ∈ ss.take rs.length, ∃ c, s = Obj.num c := fun s h => hs s (List.mem_of_mem_take h)
  have hlen : rs.length = (ss.take rs.length).length := by simp [hl]
  have single : ∀ o : Obj, WF o → (∀ E, value o E = value b E) →
      WF (.wsum (rs ++ [o]) (ss.take rs.length ++ [.num 1])) ∧ ∀ E,
      value (.wsum (rs ++ [o]) (ss.take rs.length ++ [.num 1])) E =
        (do let x ← value (.wsum rs ss) E; let y ← value b E; .ok (x + y)) := by
    intro o ho hv
    have hwf : WF (.wsum (rs ++ [o]) (ss.take rs.length ++ [.num 1])) := by
      refine .wsum _ _ ?_ ?_ (by simp [hl])
      · intro r h; rcases List.mem_append.1 h with h | h
        · exact hr r h
        · simp at h; exact h ▸ ho
      · intro s h; rcases List.mem_append.1 h with h | h
        · exact hs' s h
        · simp at h; exact ⟨1, h⟩
    refine ⟨hwf, fun E => ?_⟩
    rw [value_wsum hwf, value_wsum ha', wval_append hlen E hs', wval_take hl, wval_one, hv]
    cases wval rs ss E with
    | error e => rfl
    | ok x => cases value b E with
      | error e => rfl
      | ok y => simp [bind, Except.bind]
  simp only [wsumAdd, pairScales_ok hl]
  rcases hb with ⟨c, rfl⟩ | hb
  · exact ⟨_, rfl, single (.const c) (.const c) (fun E => by simp [value_const, value_num])⟩
  · cases hb with
    | leaf l => exact ⟨_, rfl, single (.leaf l) (.leaf l) (fun E => rfl)⟩
    | const c => exact ⟨_, rfl, single (.const c) (.const c) (fun E => rfl)⟩
    | wsum rs2 ss2 hr2 hs2 hl2 =>
      simp only [bind, Except.bind, pairScales_ok hl2]
      refine ⟨_, rfl, ?_⟩
      have hwf : WF (.wsum (rs ++ rs2) (ss.take rs.length ++ ss2.take rs2.length)) := by
        refine .wsum _ _ ?_ ?_ (by simp [hl, hl2])
        · intro r h; rcases List.mem_append.1 h with h | h
          · exact hr r h
          · exact hr2 r h
        · intro s h; rcases List.mem_append.1 h with h | h
          · exact hs' s h
          · exact hs2 s (List.mem_of_mem_take h)
      refine ⟨hwf, fun E => ?_⟩
      rw [value_wsum hwf, value_wsum ha', value_wsum (.wsum rs2 ss2 hr2 hs2 hl2),
        wval_append hlen E hs', wval_take hl, wval_take hl2]
      rfl

theorem csAdd_spec {a b : Obj} (ha : WF a) (hb : Operand b) :
    WF (csAdd a b) ∧ ∀ E, value (csAdd a b) E =
      (do let x ← value a E; let y ← value b E; .ok (x + y)) := by
  rcases hb with ⟨c, rfl⟩ | hb
  · refine ⟨wf_two ha (.const c), fun E => ?_⟩
    show value (.wsum [a, .const c] [.num 1, .num 1]) E = _
    rw [value_wsum (wf_two ha (.const c)), wval_two, value_const, value_num]
  · have : csAdd a b = .wsum [a, b] [.num 1, .num 1] := by cases hb <;> rfl
    rw [this]
    refine ⟨wf_two ha hb, fun E => ?_⟩
    rw [value_wsum (wf_two ha hb), wval_two]

/-- `+` on legal operands. -/
theorem add_spec {a b : Obj} (ha : Operand a) (hb : Operand b) (hab : WF a ∨ WF b) :
    ∃ s, add a b = .ok s ∧ WF s ∧ ∀ E, value s E =
      (do let x ← value a E; let y ← value b E; .ok (x + y)) := by
  rcases ha with ⟨c, rfl⟩ | ha
  · have hb' : WF b := by
      rcases hab with h | h
      · exact absurd rfl (h.not_num c)
      · exact h
    have hc : Operand (.num c) := .inl ⟨c, rfl⟩
    cases hb' with
    | leaf l =>
      refine ⟨_, rfl, (csAdd_spec (.leaf l) hc).1, fun E => ?_⟩
      rw [(csAdd_spec (.leaf l) hc).2 E, value_num, bind_comm_ok]
    | const d =>
      refine ⟨_, rfl, (csAdd_spec (.const d) hc).1, fun E => ?_⟩
      rw [(csAdd_spec (.const d) hc).2 E, value_num, bind_comm_ok]
    | wsum rs ss hr hs hl =>
      obtain ⟨s, h1, h2, h3⟩ := wsumAdd_spec (.wsum rs ss hr hs hl) hc
      refine ⟨s, h1, h2, fun E => ?_⟩
      rw [h3 E, value_num, bind_comm_ok]
  · cases ha with
    | leaf l => exact ⟨_, by simp [add], csAdd_spec (.leaf l) hb⟩
    | const d => exact ⟨_, by simp [add], csAdd_spec (.const d) hb⟩
    | wsum rs ss hr hs hl =>
      obtain ⟨s, h1, h2⟩ := wsumAdd_spec (.wsum rs ss hr hs hl) hb
      exact ⟨s, by simp [add, h1], h2⟩

theorem mulLoop_num (c : ℝ) {rs ss : List Obj} (hs : ∀ s ∈ ss, ∃ c, s = Obj.num c)
    (hl : rs.length ≤ ss.length) :
    ∃ ss', mulLoop (.num c) rs ss = .ok ss' ∧ ss'.length = rs.length ∧
      (∀ s ∈ ss', ∃ c, s = Obj.num c) ∧
      ∀ E, wval rs ss' E = (do let x ← wval rs ss E; .ok (c * x)) := by
  induction rs generalizing ss with
  | nil => exact ⟨[], by simp [mulLoop], by simp, by simp, fun E => by simp [wval, bind, Except.bind]⟩
  | cons r rs ih =>
    cases ss with
    | nil => simp at hl
    | cons s ss =>
      obtain ⟨d, rfl⟩ := hs s (by simp)
      obtain ⟨ss', h1, h2, h3, h4⟩ := ih (ss := ss) (fun s h => hs s (by simp [h])) (by simpa using hl)
      refine ⟨.num (c * d) :: ss', ?_, by simp [h2], ?_, fun E => ?_⟩
      · simp [mulLoop, mul_num_num, h1, bind, Except.bind]
      · intro s h; simp at h; rcases h with rfl | h
        · exact ⟨_, rfl⟩
        · exact h3 s h
      · simp only [wval]
        cases value r E with
        | error e => rfl
        | ok v =>
          simp only [bind, Except.bind]
          rw [h4 E]
          cases wval rs ss E with
          | error e => rfl
          | ok w => simp [bind, Except.bind]; ring

theorem mul_single {a : Obj} (c : ℝ) (ha : WF a) :
    WF (.wsum [a] [.num c]) ∧ ∀ E, value (.wsum [a] [.num c]) E =
      (do let x ← value a E; .ok (c * x)) := by
  have hwf : WF (.wsum [a] [.num c]) := by
    refine .wsum _ _ ?_ ?_ (by simp)
    · intro r h; simp at h; exact h ▸ ha
    · intro s h; simp at h; exact ⟨c, h⟩
  exact ⟨hwf, fun E => by rw [value_wsum hwf, wval_one]⟩

/-- scalar multiplication from either side -/
theorem mul_spec {a : Obj} (c : ℝ) (ha : WF a) :
    (∃ s, mul (.num c) a = .ok s ∧ WF s ∧ ∀ E, value s E = (do let x ← value a E; .ok (c * x))) ∧
    (∃ s, mul a (.num c) = .ok s ∧ WF s ∧ ∀ E, value s E = (do let x ← value a E; .ok (c * x))) := by
  cases ha with
  | leaf l => exact ⟨⟨_, by simp [mul], mul_single c (.leaf l)⟩, ⟨_, by simp [mul], mul_single c (.leaf l)⟩⟩
  | const l => exact ⟨⟨_, by simp [mul], mul_single c (.const l)⟩, ⟨_, by simp [mul], mul_single c (.const l)⟩⟩
  | wsum rs ss hr hs hl =>
    obtain ⟨ss', h1, h2, h3, h4⟩ := mulLoop_num c hs hl
    have hwf : WF (.wsum rs ss') := .wsum _ _ hr h3 (le_of_eq h2.symm)
    have hv : ∀ E, value (.wsum rs ss') E = (do let x ← value (.wsum rs ss) E; .ok (c * x)) := by
      intro E; rw [value_wsum hwf, value_wsum (.wsum rs ss hr hs hl), h4]
    exact ⟨⟨_, by simp [mul, h1, Except.map], hwf, hv⟩, ⟨_, by simp [mul, h1, Except.map], hwf, hv⟩⟩

end Ries
