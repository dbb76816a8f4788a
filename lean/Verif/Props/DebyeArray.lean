import Verif.Model.DebyeArray
import Verif.Props.Debye

/-! # Property C99: effective temperatures of arrays -/

namespace Ries

/-- the entry `i` of an argument, a number standing for an array of equal entries -/
def NumArg.at? : NumArg → ℕ → Option ℝ
  | .scalar x, _ => some x
  | .array xs, i => xs[i]?

/-- the argument is a number or an array of length `n` -/
def NumArg.Fits (n : ℕ) : NumArg → Prop
  | .scalar _ => True
  | .array xs => xs.length = n

/-- C99 in full: effective temperatures of arrays (of a common length, or combined with numbers) are the effective temperatures of the
entries, for all arrays of nonzero temperatures. -/
def C99Statement : Prop := ∀ (n : ℕ) (T TD : NumArg), T.Fits n → TD.Fits n →
  (∀ i, i < n → ∀ x, T.at? i = some x ∨ TD.at? i = some x → x ≠ 0) → ((∃ xs, T = .array xs) ∨ ∃ xs, TD = .array xs) →
  ∃ vs, debyeVectorized T TD = .ok (.array vs) ∧ vs.length = n ∧
    ∀ i, i < n → ∃ x y v, T.at? i = some x ∧ TD.at? i = some y ∧ vs[i]? = some v ∧ debyeTemperature x y = .ok v

/-- C99 is false of the code: empty arrays raise `ValueError`. -/
theorem C99_refuted : ¬ C99Statement ∧ ∀ T TD : NumArg, T = .array [] ∨ TD = .array [] → debyeVectorized T TD = .error .valueError := by
  have h : ∀ T TD : NumArg, T = .array [] ∨ TD = .array [] → debyeVectorized T TD = .error .valueError := by
    rintro T TD (rfl | rfl)
    · rfl
    · cases T with
      | scalar x => rfl
      | array xs => cases xs <;> rfl
  refine ⟨fun hc => ?_, h⟩
  obtain ⟨vs, h1, -⟩ := hc 0 (.array []) (.scalar 300) rfl trivial (by simp) (Or.inl ⟨_, rfl⟩)
  rw [h _ _ (Or.inl rfl)] at h1
  simp at h1

theorem mapM_debye (ps : List (ℝ × ℝ)) (h : ∀ p ∈ ps, p.1 ≠ 0 ∧ p.2 ≠ 0) :
    ∃ vs, (ps.mapM fun p => debyeTemperature p.1 p.2) = .ok vs ∧ vs.length = ps.length ∧
      ∀ (i : ℕ) p, ps[i]? = some p → ∃ v, vs[i]? = some v ∧ debyeTemperature p.1 p.2 = .ok v := by
  induction ps with
  | nil => exact ⟨[], rfl, rfl, by simp⟩
  | cons p ps ih =>
    obtain ⟨vs, h1, h2, h3⟩ := ih fun q hq => h q (List.mem_cons_of_mem _ hq)
    obtain ⟨v, hv⟩ : ∃ v, debyeTemperature p.1 p.2 = .ok v := by
      have := h p (by simp)
      exact ⟨_, by rw [debyeTemperature, if_neg this.2, if_neg this.1]⟩
    refine ⟨v :: vs, ?_, by simp [h2], ?_⟩
    · rw [List.mapM_cons, hv, h1]; rfl
    · intro i q hq
      cases i with
      | zero => simp at hq; subst hq; exact ⟨v, rfl, hv⟩
      | succ i => simpa using h3 i q (by simpa using hq)

theorem broadcast_one_left (x : ℝ) (ys : List ℝ) : broadcastPairs [x] ys = .ok (ys.map fun y => (x, y)) := by
  unfold broadcastPairs
  split
  · rename_i h
    match ys, h with
    | [y], _ => rfl
  · rfl

theorem broadcast_one_right (xs : List ℝ) (y : ℝ) : broadcastPairs xs [y] = .ok (xs.map fun x => (x, y)) := by
  unfold broadcastPairs
  split
  · rename_i h
    match xs, h with
    | [x], _ => rfl
  · rename_i h
    match xs, h with
    | [], _ => rfl
    | [x], h => exact absurd rfl h
    | x :: x' :: xs, _ => rfl

theorem broadcast_same {xs ys : List ℝ} (h : xs.length = ys.length) : broadcastPairs xs ys = .ok (xs.zip ys) := by
  unfold broadcastPairs
  exact if_pos h

theorem broadcast_differ {xs ys : List ℝ} (h1 : 1 < xs.length) (h2 : 1 < ys.length) (h : xs.length ≠ ys.length) :
    broadcastPairs xs ys = .error .valueError := by
  unfold broadcastPairs
  refine (if_neg h).trans ?_
  match xs, ys, h1, h2 with
  | _ :: _ :: _, _ :: _ :: _, _, _ => rfl

/-- the pairs of entries of arguments that fit together -/
theorem broadcast_fits {n : ℕ} {T TD : NumArg} (hT : T.Fits n) (hD : TD.Fits n)
    (ha : (∃ xs, T = .array xs) ∨ ∃ xs, TD = .array xs) :
    ∃ ps, broadcastPairs T.entries TD.entries = .ok ps ∧ ps.length = n ∧
      ∀ i, i < n → ∃ p, ps[i]? = some p ∧ T.at? i = some p.1 ∧ TD.at? i = some p.2 := by
  cases T with
  | scalar x =>
    cases TD with
    | scalar y => rcases ha with ⟨_, h⟩ | ⟨_, h⟩ <;> cases h
    | array ys =>
      have hl : ys.length = n := hD
      refine ⟨ys.map fun y => (x, y), broadcast_one_left x ys, by simpa using hl, ?_⟩
      · intro i hi
        have : i < ys.length := by omega
        exact ⟨(x, ys[i]), by simp [this], rfl, by simp [NumArg.at?, this]⟩
  | array xs =>
    have hlx : xs.length = n := hT
    cases TD with
    | scalar y =>
      refine ⟨xs.map fun x => (x, y), broadcast_one_right xs y, by simpa using hlx, ?_⟩
      · intro i hi
        have : i < xs.length := by omega
        exact ⟨(xs[i], y), by simp [this], by simp [NumArg.at?, this], rfl⟩
    | array ys =>
      have hly : ys.length = n := hD
      refine ⟨xs.zip ys, broadcast_same (hlx.trans hly.symm), by simp [hlx, hly], ?_⟩
      · intro i hi
        have h1 : i < xs.length := by omega
        have h2 : i < ys.length := by omega
        exact ⟨(xs[i], ys[i]), by simp [h1, h2], by simp [NumArg.at?, h1], by simp [NumArg.at?, h2]⟩

theorem debyeVectorized_array {T TD : NumArg} (ha : (∃ xs, T = .array xs) ∨ ∃ xs, TD = .array xs)
    (h1 : T.entries ≠ []) (h2 : TD.entries ≠ []) :
    debyeVectorized T TD = (broadcastPairs T.entries TD.entries).bind fun ps =>
      (ps.mapM fun p => debyeTemperature p.1 p.2).map .array := by
  rw [debyeVectorized, if_neg (by simp [h1, h2])]
  show Except.bind _ _ = _
  congr 1
  funext ps
  cases hm : (ps.mapM fun p => debyeTemperature p.1 p.2) with
  | error e => rfl
  | ok vs => rcases ha with ⟨xs, rfl⟩ | ⟨xs, rfl⟩ <;> [cases TD; cases T] <;> rfl

/-- C99, proved part: for arrays that are not empty the effective temperatures are computed entry by entry; two numbers give a number;
an entry that is zero raises `ZeroDivisionError`, whatever the other entries; arrays of different lengths greater than one raise
`ValueError`. Missing for the full statement: empty arrays, for which it is false (`C99_refuted`). -/
theorem C99_partial {n : ℕ} (hn : 0 < n) {T TD : NumArg} (hT : T.Fits n) (hD : TD.Fits n) :
    ((∃ xs, T = .array xs) ∨ (∃ xs, TD = .array xs) →
      ((∀ i, i < n → ∀ x, T.at? i = some x ∨ TD.at? i = some x → x ≠ 0) →
        ∃ vs, debyeVectorized T TD = .ok (.array vs) ∧ vs.length = n ∧
          ∀ i, i < n → ∃ x y v, T.at? i = some x ∧ TD.at? i = some y ∧ vs[i]? = some v ∧ debyeTemperature x y = .ok v) ∧
      ((∃ i, i < n ∧ (T.at? i = some 0 ∨ TD.at? i = some 0)) → debyeVectorized T TD = .error .zeroDivision)) ∧
    (∀ x y, debyeVectorized (.scalar x) (.scalar y) = (debyeTemperature x y).map .scalar) ∧
    ∀ xs ys : List ℝ, 1 < xs.length → 1 < ys.length → xs.length ≠ ys.length →
      debyeVectorized (.array xs) (.array ys) = .error .valueError := by
  refine ⟨fun ha => ?_, ?_, ?_⟩
  · obtain ⟨ps, hps, hlen, hp⟩ := broadcast_fits hT hD ha
    have hne : ∀ A : NumArg, A.Fits n → A.entries ≠ [] := by
      rintro (x | xs) hA
      · simp [NumArg.entries]
      · rintro (rfl : xs = [])
        have : 0 = n := hA
        omega
    rw [debyeVectorized_array ha (hne T hT) (hne TD hD), hps]
    constructor
    · intro hz
      obtain ⟨vs, h1, h2, h3⟩ := mapM_debye ps (by
        intro p hpm
        obtain ⟨i, hi, rfl⟩ := List.getElem_of_mem hpm
        obtain ⟨q, hq, h1, h2⟩ := hp i (by omega)
        rw [List.getElem?_eq_getElem hi] at hq
        cases hq
        exact ⟨hz i (by omega) _ (Or.inl h1), hz i (by omega) _ (Or.inr h2)⟩)
      refine ⟨vs, ?_, h2.trans hlen, ?_⟩
      · simp only [Except.bind, h1, Except.map]
      · intro i hi
        obtain ⟨p, hq, h4, h5⟩ := hp i hi
        obtain ⟨v, h6, h7⟩ := h3 i p hq
        exact ⟨p.1, p.2, v, h4, h5, h6, h7⟩
    · rintro ⟨i, hi, h0⟩
      obtain ⟨p, hq, h4, h5⟩ := hp i hi
      have hz : p.1 = 0 ∨ p.2 = 0 := by
        rcases h0 with h | h
        · left; rw [h4] at h; exact Option.some.inj h
        · right; rw [h5] at h; exact Option.some.inj h
      have hmem : p ∈ ps := List.mem_of_getElem? hq
      have key : ∀ qs : List (ℝ × ℝ), p ∈ qs → (qs.mapM fun p => debyeTemperature p.1 p.2) = .error .zeroDivision := by
        have hp0 : debyeTemperature p.1 p.2 = .error .zeroDivision := by
          unfold debyeTemperature
          by_cases h : p.2 = 0
          · rw [if_pos h]
          · rw [if_neg h, if_pos (by tauto)]
        intro qs hqs
        induction qs with
        | nil => simp at hqs
        | cons q qs ih =>
          rw [List.mapM_cons]
          rcases List.mem_cons.1 hqs with rfl | hm
          · rw [hp0]; rfl
          · rw [ih hm]
            unfold debyeTemperature
            split
            · rfl
            · split <;> rfl
      simp only [Except.bind, key ps hmem, Except.map]
  · intro x y
    have h : debyeVectorized (.scalar x) (.scalar y) = ([(x, y)].mapM fun p => debyeTemperature p.1 p.2).bind fun vs =>
        match NumArg.scalar x, NumArg.scalar y, vs with
        | .scalar _, .scalar _, [v] => .ok (.scalar v)
        | _, _, vs => .ok (.array vs) := rfl
    rw [h, List.mapM_cons, List.mapM_nil]
    cases debyeTemperature x y <;> rfl
  · intro xs ys h1 h2 hne
    rw [debyeVectorized_array (Or.inl ⟨_, rfl⟩)]
    · show Except.bind (broadcastPairs xs ys) _ = _
      rw [broadcast_differ h1 h2 hne]; rfl
    · rintro (rfl : xs = []); simp at h1
    · rintro (rfl : ys = []); simp at h2

example : ∃ vs, debyeVectorized (.array [4, 77, 293]) (.scalar 1362) = .ok (.array vs) ∧ vs.length = 3 := by
  obtain ⟨vs, h1, h2, -⟩ := ((C99_partial (n := 3) (by norm_num) (T := .array [4, 77, 293]) (TD := .scalar 1362) rfl trivial).1
    (Or.inl ⟨_, rfl⟩)).1 (by
      intro i hi x hx
      have : i = 0 ∨ i = 1 ∨ i = 2 := by omega
      rcases this with rfl | rfl | rfl <;> rcases hx with hx | hx <;> simp [NumArg.at?] at hx <;> subst hx <;> norm_num)
  exact ⟨vs, h1, h2⟩

end Ries
