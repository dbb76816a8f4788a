import Verif.Model.Signatures
import Mathlib.Data.List.Basic
import Mathlib.Tactic.FinCases

/-! # Property C129: calling the methods of a cross section without knowing its class -/

namespace Ries.Sig

variable {α : Type}

/-- value of the first keyword argument of a given name -/
def kwGet (key : String) : List (String × α) → Option α
  | [] => none
  | (k, v) :: kw => if k = key then some v else kwGet key kw

theorem fillPos_ok {sig : List Param} {pos : List α} {s : List (Param × Option α)} (h : fillPos sig pos = .ok s) :
    pos.length ≤ sig.length ∧ s.map Prod.fst = sig ∧ ∀ i, (s.map Prod.snd)[i]? = if i < sig.length then some pos[i]? else none := by
  induction sig generalizing pos s with
  | nil =>
    cases pos with
    | nil => simp only [fillPos, Except.ok.injEq] at h; subst h; simp
    | cons v vs => simp [fillPos] at h
  | cons p ps ih =>
    cases pos with
    | nil =>
      simp only [fillPos] at h
      cases h1 : fillPos ps ([] : List α) with
      | error e => simp [h1, Except.map] at h
      | ok t =>
        simp only [h1, Except.map, Except.ok.injEq] at h
        subst h
        obtain ⟨-, h2, h3⟩ := ih h1
        refine ⟨by simp, by simp [h2], fun i => ?_⟩
        cases i with
        | zero => simp
        | succ i => simpa using h3 i
    | cons v vs =>
      simp only [fillPos] at h
      cases h1 : fillPos ps vs with
      | error e => simp [h1, Except.map] at h
      | ok t =>
        simp only [h1, Except.map, Except.ok.injEq] at h
        subst h
        obtain ⟨h0, h2, h3⟩ := ih h1
        refine ⟨by simpa using h0, by simp [h2], fun i => ?_⟩
        cases i with
        | zero => simp
        | succ i => simpa using h3 i

theorem setKw_ok {key : String} {v : α} {s s' : List (Param × Option α)} (h : setKw key v s = .ok s') :
    ∃ (i : ℕ) (p : Param), s[i]? = some (p, none) ∧ p.name = key ∧ (∀ j < i, ∀ q, s[j]? = some q → q.1.name ≠ key) ∧ s' = s.set i (p, some v) := by
  induction s generalizing s' with
  | nil => simp [setKw] at h
  | cons q t ih =>
    obtain ⟨p, o⟩ := q
    unfold setKw at h
    by_cases hk : p.name = key
    · rw [if_pos hk] at h
      cases o with
      | some w => simp at h
      | none =>
        simp only [Except.ok.injEq] at h
        exact ⟨0, p, by simp, hk, by simp, by simp [h]⟩
    · rw [if_neg hk] at h
      cases h1 : setKw key v t with
      | error e => simp [h1, Except.map] at h
      | ok t' =>
        simp only [h1, Except.map, Except.ok.injEq] at h
        obtain ⟨i, p', h2, h3, h4, h5⟩ := ih h1
        refine ⟨i + 1, p', by simpa using h2, h3, ?_, by simp [← h, h5]⟩
        intro j hj q hq
        cases j with
        | zero => simp at hq; rw [← hq]; exact hk
        | succ j => exact h4 j (by omega) q (by simpa using hq)

theorem setKws_ok {kw : List (String × α)} {s s' : List (Param × Option α)} (hn : (s.map fun q => q.1.name).Nodup)
    (h : setKws kw s = .ok s') :
    s'.map Prod.fst = s.map Prod.fst ∧
    (∀ (i : ℕ) (p : Param) (o : Option α), s[i]? = some (p, o) → s'[i]? = some (p, o.or (kwGet p.name kw))) ∧
    (∀ k ∈ kw.map Prod.fst, ∃ (i : ℕ) (p : Param), s[i]? = some (p, none) ∧ p.name = k) := by
  induction kw generalizing s with
  | nil =>
    simp only [setKws, Except.ok.injEq] at h
    subst h
    refine ⟨rfl, fun i p o hi => by simp [kwGet, hi], by simp⟩
  | cons e kw ih =>
    obtain ⟨key, v⟩ := e
    simp only [setKws, bind, Except.bind] at h
    cases h1 : setKw key v s with
    | error e => simp [h1] at h
    | ok s1 =>
      simp only [h1] at h
      obtain ⟨i0, p0, k1, k2, -, k4⟩ := setKw_ok h1
      have hi0 : i0 < s.length := (List.getElem?_eq_some_iff.1 k1).1
      have hfst : s1.map Prod.fst = s.map Prod.fst := by
        rw [k4, List.map_set]
        apply List.ext_getElem?
        intro j
        rw [List.getElem?_set]
        by_cases hj : i0 = j
        · subst hj; simp [hi0]
          exact (congrArg Prod.fst (List.getElem?_eq_some_iff.1 k1).2).symm
        · simp [hj]
      have hnames : s1.map (fun q => q.1.name) = s.map fun q => q.1.name := by
        have := congrArg (List.map Param.name) hfst
        simpa [Function.comp_def] using this
      have hinj : ∀ i p o, s[i]? = some (p, o) → p.name = key → i = i0 := by
        intro i p o hi hp
        have hil : i < s.length := (List.getElem?_eq_some_iff.1 hi).1
        refine (List.Nodup.getElem_inj_iff hn (hi := by simpa using hil) (hj := by simpa using hi0)).1 ?_
        simp only [List.getElem_map, (List.getElem?_eq_some_iff.1 hi).2, (List.getElem?_eq_some_iff.1 k1).2, hp, k2]
      obtain ⟨m1, m2, m3⟩ := ih (by rw [hnames]; exact hn) h
      refine ⟨m1.trans hfst, ?_, ?_⟩
      · intro i p o hi
        by_cases hj : i = i0
        · subst hj
          rw [k1] at hi
          simp only [Option.some.injEq, Prod.mk.injEq] at hi
          obtain ⟨rfl, rfl⟩ := hi
          have : s1[i]? = some (p0, some v) := by rw [k4]; simp [hi0]
          rw [m2 i p0 _ this]
          simp [kwGet, k2]
        · have : s1[i]? = some (p, o) := by
            rw [k4, List.getElem?_set_ne (by omega), hi]
          rw [m2 i p o this]
          have hne : key ≠ p.name := fun e => hj (hinj i p o hi e.symm)
          simp [kwGet, hne]
      · intro k hk
        rw [List.map_cons, List.mem_cons] at hk
        rcases hk with rfl | hk
        · exact ⟨i0, p0, k1, k2⟩
        · obtain ⟨i, p, h5, h6⟩ := m3 k hk
          by_cases hj : i = i0
          · subst hj
            rw [k4] at h5
            simp [hi0] at h5
          · refine ⟨i, p, ?_, h6⟩
            rwa [k4, List.getElem?_set_ne (by omega)] at h5

theorem finish_ok {s : List (Param × Option α)} {vs : List (Option α)} (h : finish s = .ok vs) :
    vs = s.map Prod.snd ∧ ∀ q ∈ s, q.2 = none → q.1.hasDefault = true := by
  induction s generalizing vs with
  | nil => simp only [finish, Except.ok.injEq] at h; subst h; simp
  | cons q t ih =>
    obtain ⟨p, o⟩ := q
    unfold finish at h
    split at h
    · simp at h
    · rename_i hc
      cases h1 : finish t with
      | error e => simp [h1, Except.map] at h
      | ok ws =>
        simp only [h1, Except.map, Except.ok.injEq] at h
        obtain ⟨h2, h3⟩ := ih h1
        subst h h2
        refine ⟨by simp, ?_⟩
        intro q hq hqn
        rcases List.mem_cons.1 hq with rfl | hq
        · simp only at hqn
          subst hqn
          simpa using hc
        · exact h3 q hq hqn

/-- What a successful call binds: the positional arguments in order, then the keyword arguments by name; every keyword is the name of
a parameter that has no positional argument; a parameter without value has a default. -/
theorem bindArgs_ok {sig : List Param} (hn : (sig.map Param.name).Nodup) {pos : List α} {kw : List (String × α)} {vs : List (Option α)}
    (h : bindArgs sig pos kw = .ok vs) :
    pos.length ≤ sig.length ∧ vs.length = sig.length ∧
    (∀ (i : ℕ) (p : Param), sig[i]? = some p → vs[i]? = some (if i < pos.length then pos[i]? else kwGet p.name kw)) ∧
    (∀ k ∈ kw.map Prod.fst, ∃ (i : ℕ) (p : Param), sig[i]? = some p ∧ p.name = k ∧ pos.length ≤ i) ∧
    ∀ (i : ℕ) (p : Param), sig[i]? = some p → vs[i]? = some none → p.hasDefault = true := by
  simp only [bindArgs, bind, Except.bind] at h
  cases h1 : fillPos sig pos with
  | error e => simp [h1] at h
  | ok s =>
    simp only [h1] at h
    cases h2 : setKws kw s with
    | error e => simp [h2] at h
    | ok s' =>
      simp only [h2] at h
      obtain ⟨a1, a2, a3⟩ := fillPos_ok h1
      have hn' : (s.map fun q => q.1.name).Nodup := by
        have : s.map (fun q => q.1.name) = sig.map Param.name := by rw [← a2]; simp [Function.comp_def]
        rw [this]; exact hn
      obtain ⟨b1, b2, b3⟩ := setKws_ok hn' h2
      obtain ⟨c1, c2⟩ := finish_ok h
      have hslot : ∀ (i : ℕ) (p : Param), sig[i]? = some p → s[i]? = some (p, pos[i]?) := by
        intro i p hi
        have hil : i < sig.length := (List.getElem?_eq_some_iff.1 hi).1
        have e1 := a3 i
        rw [if_pos hil, List.getElem?_map] at e1
        have e2 : (s.map Prod.fst)[i]? = some p := by rw [a2]; exact hi
        rw [List.getElem?_map] at e2
        cases hs : s[i]? with
        | none => simp [hs] at e2
        | some q =>
          rw [hs] at e1 e2
          simp only [Option.map_some, Option.some.injEq] at e1 e2
          rw [← e1, ← e2]
      have hslot' : ∀ (i : ℕ) (p : Param), sig[i]? = some p → s'[i]? = some (p, if i < pos.length then pos[i]? else kwGet p.name kw) := by
        intro i p hi
        rw [b2 i p _ (hslot i p hi)]
        by_cases hp : i < pos.length
        · simp [hp]
        · simp [hp]
      have hlen : s'.length = sig.length := by
        have := congrArg List.length (b1.trans a2)
        simpa using this
      refine ⟨a1, by rw [c1]; simp [hlen], ?_, ?_, ?_⟩
      · intro i p hi
        rw [c1, List.getElem?_map, hslot' i p hi]; rfl
      · intro k hk
        obtain ⟨i, p, k1, k2⟩ := b3 k hk
        have hil : i < sig.length := by
          have := (List.getElem?_eq_some_iff.1 k1).1
          have e := congrArg List.length a2
          simp at e; omega
        have hp : sig[i]? = some p := by rw [← a2, List.getElem?_map, k1]; rfl
        have := hslot i p hp
        rw [k1] at this
        simp only [Option.some.injEq, Prod.mk.injEq, true_and] at this
        refine ⟨i, p, hp, k2, ?_⟩
        by_contra hc
        rw [List.getElem?_eq_getElem (by omega)] at this
        simp at this
      · intro i p hi hv
        have e := hslot' i p hi
        rw [c1, List.getElem?_map, e] at hv
        simp only [Option.map_some, Option.some.injEq] at hv
        exact c2 _ (List.mem_of_getElem? e) hv

/-! ## C129 -/

/-- every signature, by class and method -/
theorem signature_cases (c : Cls) (m : Meth) {sig : List Param} (h : signature c m = some sig) :
    (m = .call ∧ (sig = [req "E"] ∨ sig = [req "energy"] ∨ sig = [req "E", ⟨"input_is_absolute_energy", true⟩])) ∨
    (m = .energyGrid ∧ (sig = [req "limits", req "n_points"] ∨ sig = [req "coverage_or_limits", req "n_points"])) ∨
    (m = .probGrid ∧ (sig = [req "limits", req "n_points"] ∨ sig = [req "coverage_or_limits", req "n_points"] ∨
      sig = [req "limits", req "n_points_per_cross_section"])) ∨
    (m = .coverageInterval ∧ sig = [req "coverage"]) := by
  cases c <;> cases m <;> simp_all [signature, mro, own, List.findSome?, eq_comm]

theorem signature_nodup (c : Cls) (m : Meth) {sig : List Param} (h : signature c m = some sig) : (sig.map Param.name).Nodup := by
  rcases signature_cases c m h with ⟨-, h | h | h⟩ | ⟨-, h | h⟩ | ⟨-, h | h | h⟩ | ⟨-, h⟩ <;> subst h <;> decide

/-- A name stands for the same position in all signatures of a method; where two signatures differ in the name of a required parameter, the
other one does not have the name at all. -/
theorem signature_consistent {c c' : Cls} {m : Meth} {sig sig' : List Param} (h : signature c m = some sig) (h' : signature c' m = some sig')
    (i : ℕ) (p p' : Param) (hp : sig[i]? = some p) (hp' : sig'[i]? = some p') :
    p.name = p'.name ∨ p'.hasDefault = false ∧ p'.name ∉ sig.map Param.name := by
  have key : ∀ s ∈ [[[req "E"], [req "energy"], [req "E", ⟨"input_is_absolute_energy", true⟩]],
      [[req "limits", req "n_points"], [req "coverage_or_limits", req "n_points"], [req "limits", req "n_points_per_cross_section"]],
      [[req "coverage"]]], ∀ t ∈ s, ∀ t' ∈ s, ∀ i ∈ List.range 2, ∀ p ∈ t[i]?, ∀ p' ∈ t'[i]?,
      p.name = p'.name ∨ p'.hasDefault = false ∧ p'.name ∉ t.map Param.name := by decide
  have hlen : i < 2 := by
    have hl := (List.getElem?_eq_some_iff.1 hp).1
    rcases signature_cases c m h with ⟨-, e | e | e⟩ | ⟨-, e | e⟩ | ⟨-, e | e | e⟩ | ⟨-, e⟩ <;> subst e <;> simp at hl <;> omega
  have hfam : ∃ s ∈ [[[req "E"], [req "energy"], [req "E", ⟨"input_is_absolute_energy", true⟩]],
      [[req "limits", req "n_points"], [req "coverage_or_limits", req "n_points"], [req "limits", req "n_points_per_cross_section"]],
      [[req "coverage"]]], sig ∈ s ∧ sig' ∈ s := by
    rcases signature_cases c m h with ⟨em, e⟩ | ⟨em, e⟩ | ⟨em, e⟩ | ⟨em, e⟩ <;> subst em <;>
      rcases signature_cases c' _ h' with ⟨em', e'⟩ | ⟨em', e'⟩ | ⟨em', e'⟩ | ⟨em', e'⟩ <;>
      first
        | exact absurd em' (by decide)
        | (subst e; subst e'; exact ⟨_, List.mem_cons_of_mem _ (List.mem_cons_of_mem _ List.mem_cons_self), List.mem_cons_self, List.mem_cons_self⟩)
        | exact ⟨_, List.mem_cons_self, by simpa using e, by simpa using e'⟩
        | exact ⟨_, List.mem_cons_of_mem _ List.mem_cons_self, by rcases e with e | e <;> simp [e], by rcases e' with e' | e' <;> simp [e']⟩
  obtain ⟨s, hs, h1, h2⟩ := hfam
  exact key s hs sig h1 sig' h2 i (List.mem_range.2 hlen) p hp p' hp'

theorem kwGet_none {key : String} {kw : List (String × α)} (h : key ∉ kw.map Prod.fst) : kwGet key kw = none := by
  induction kw with
  | nil => rfl
  | cons e kw ih =>
    rw [List.map_cons, List.mem_cons, not_or] at h
    rw [kwGet, if_neg (fun e' => h.1 e'.symm), ih h.2]

/-- C129 is false of the code. The energy is called `E` by resonances and nonresonant processes, `energy` by constants and sums; the
limits are called `coverage_or_limits` by resonances, `limits` by all others; the number of points is called differently by sums. A call
by name that works for an object therefore raises `TypeError` for another one, also for a sum with that object as its only term. -/
theorem C129_refuted (x a n : α) :
    call .resonance .call [] [("E", x)] = .ok [some x, none] ∧ call .weightedSum .call [] [("E", x)] = .error .typeError ∧
    call .weightedSum .call [] [("energy", x)] = .ok [some x] ∧ call .resonance .call [] [("energy", x)] = .error .typeError ∧
    call .kleinNishina .call [] [("E", x)] = .ok [some x] ∧ call .constant .call [] [("E", x)] = .error .typeError ∧
    call .resonance .call [x] [("input_is_absolute_energy", a)] = .ok [some x, some a] ∧
    call .weightedSum .call [x] [("input_is_absolute_energy", a)] = .error .typeError ∧
    call .weightedSum .energyGrid [] [("limits", a), ("n_points", n)] = .ok [some a, some n] ∧
    call .resonance .energyGrid [] [("limits", a), ("n_points", n)] = .error .typeError ∧
    call .resonance .probGrid [a] [("n_points", n)] = .ok [some a, some n] ∧
    call .weightedSum .probGrid [a] [("n_points", n)] = .error .typeError ∧
    call .weightedSum .coverageInterval [a] [] = .error .attributeError := by
  refine ⟨rfl, rfl, rfl, rfl, rfl, rfl, rfl, rfl, rfl, rfl, rfl, rfl, rfl⟩

/-- C129: no call with keyword arguments evaluates both a resonance and a sum, or makes the probability grid of both. -/
theorem C129_no_common_keyword {m : Meth} (hm : m = .call ∨ m = .probGrid) {pos : List α} {kw : List (String × α)}
    {vs ws : List (Option α)} (h : call .resonance m pos kw = .ok vs) (h' : call .weightedSum m pos kw = .ok ws) : kw = [] := by
  by_contra hne
  obtain ⟨⟨k, v⟩, kw', rfl⟩ := List.exists_cons_of_ne_nil hne
  have key : ∀ (sig : List Param) (us : List (Option α)), (sig.map Param.name).Nodup → bindArgs sig pos ((k, v) :: kw') = .ok us →
      k ∈ sig.map Param.name := by
    intro sig us hn hb
    obtain ⟨i, p, hi, hk, -⟩ := (bindArgs_ok hn hb).2.2.2.1 k (by simp)
    rw [← hk]; exact List.mem_map_of_mem (List.mem_of_getElem? hi)
  rcases hm with rfl | rfl
  · have h1 := key _ _ (by decide) (show bindArgs [req "E", ⟨"input_is_absolute_energy", true⟩] _ _ = _ from h)
    have h2 := key _ _ (by decide) (show bindArgs [req "energy"] _ _ = _ from h')
    simp [req] at h1 h2
    rcases h1 with h1 | h1 <;> rw [h1] at h2 <;> exact absurd h2 (by decide)
  · have h1 := key _ _ (by decide) (show bindArgs [req "coverage_or_limits", req "n_points"] _ _ = _ from h)
    have h2 := key _ _ (by decide) (show bindArgs [req "limits", req "n_points_per_cross_section"] _ _ = _ from h')
    simp [req] at h1 h2
    rcases h1 with h1 | h1 <;> rw [h1] at h2 <;> rcases h2 with h2 | h2 <;> exact absurd h2 (by decide)

/-- C129, the part that holds: with positional arguments, one energy evaluates every object and limits and a number of points, in this
order, make both grids of every object. -/
theorem C129_partial (c : Cls) (x a n : α) :
    (∃ us, call c .call [x] [] = .ok (some x :: us) ∧ ∀ u ∈ us, u = none) ∧
    call c .energyGrid [a, n] [] = .ok [some a, some n] ∧ call c .probGrid [a, n] [] = .ok [some a, some n] := by
  cases c <;> refine ⟨⟨_, rfl, by simp⟩, rfl, rfl⟩

/-- C129, the part that holds: whenever two objects accept the same call of the same method, positional or by name, they bind the same
values to the parameters that both have. -/
theorem C129_agree_partial {c c' : Cls} {m : Meth} {pos : List α} {kw : List (String × α)} {vs ws : List (Option α)}
    (h : call c m pos kw = .ok vs) (h' : call c' m pos kw = .ok ws) (i : ℕ) (hi : i < vs.length) (hi' : i < ws.length) :
    vs[i] = ws[i] := by
  unfold call at h h'
  cases hs : signature c m with
  | none => simp [hs] at h
  | some sig =>
    cases hs' : signature c' m with
    | none => simp [hs'] at h'
    | some sig' =>
      simp only [hs] at h
      simp only [hs'] at h'
      obtain ⟨-, l1, v1, k1, d1⟩ := bindArgs_ok (signature_nodup c m hs) h
      obtain ⟨-, l2, v2, k2, d2⟩ := bindArgs_ok (signature_nodup c' m hs') h'
      have e1 := v1 i _ (List.getElem?_eq_getElem (by omega))
      have e2 := v2 i _ (List.getElem?_eq_getElem (by omega))
      rw [List.getElem?_eq_getElem hi, Option.some.injEq] at e1
      rw [List.getElem?_eq_getElem hi', Option.some.injEq] at e2
      by_cases hp : i < pos.length
      · rw [if_pos hp] at e1 e2; rw [e1, e2]
      · rw [if_neg hp] at e1 e2
        rcases signature_consistent hs hs' i _ _ (List.getElem?_eq_getElem (by omega)) (List.getElem?_eq_getElem (by omega)) with hc | ⟨hc, hc'⟩
        · rw [e1, e2, hc]
        · exfalso
          have hne : ws[i] ≠ none := by
            intro hn
            have := d2 i _ (List.getElem?_eq_getElem (by omega)) (by rw [List.getElem?_eq_getElem hi', hn])
            rw [hc] at this; simp at this
          have hmem : (sig'[i]'(by omega)).name ∈ kw.map Prod.fst := by
            by_contra hcon
            exact hne (e2.trans (kwGet_none hcon))
          obtain ⟨j, p, hj, hpn, -⟩ := k1 _ hmem
          exact hc' (hpn ▸ List.mem_map_of_mem (List.mem_of_getElem? hj))

/-- A call by name that a resonance and a nonresonant process both accept. -/
example (x : α) : call .resonance .call [] [("E", x)] = .ok [some x, none] ∧ call .xrmac .call [] [("E", x)] = .ok [some x] := ⟨rfl, rfl⟩

end Ries.Sig
