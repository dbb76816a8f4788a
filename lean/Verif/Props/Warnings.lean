import Verif.Model.Warnings
import Verif.Props.Resonance
import Verif.Props.PseudoVoigt

/-!
C173: every unphysical coverage interval is announced to the user. False with Python's usual treatment of warnings: since the
number in the warning is always 50 for Breit-Wigner and Gauss resonances (C18), their warnings all have the same text, and
at most one of them is printed per program.
-/

open Set MeasureTheory

namespace Ries

/-! ## Specification -/

/-- The warnings a call asks for. -/
noncomputable def asked (q : Reso × ℝ) : List Notice :=
  match q.1.coverageInterval q.2 with
  | .ok ci => ci.notices
  | .error _ => []

/-- The call returned an interval with a negative lower limit. -/
def Unphysical (e : Except Err Reso.Cov × List Notice) : Prop := ∃ ci, e.1 = .ok ci ∧ ci.lo.isNeg

/-- The user was told about a negative lower limit during the call. -/
def Announced (e : Except Err Reso.Cov × List Notice) : Prop := ∃ n, Notice.negative n ∈ e.2

/-! ## Lemmas -/

theorem warnAll_mem_default (m : Notice) (ms : List Notice) (reg : List Notice) :
    m ∈ (warnAll .default reg ms).1 ↔ m ∈ ms ∧ m ∉ reg := by
  induction ms generalizing reg with
  | nil => simp [warnAll]
  | cons a ms ih =>
    by_cases ha : a ∈ reg
    · simp only [warnAll, warnOne, ha, if_true, List.nil_append, ih, List.mem_cons]
      constructor
      · rintro ⟨h1, h2⟩; exact ⟨Or.inr h1, h2⟩
      · rintro ⟨rfl | h1, h2⟩
        · exact absurd ha h2
        · exact ⟨h1, h2⟩
    · simp only [warnAll, warnOne, ha, if_false, List.mem_append, List.mem_cons, List.not_mem_nil, or_false, ih, not_or]
      constructor
      · rintro (rfl | ⟨h1, -, h2⟩)
        · exact ⟨Or.inl rfl, ha⟩
        · exact ⟨Or.inr h1, h2⟩
      · rintro ⟨h1, h2⟩
        by_cases hma : m = a
        · exact Or.inl hma
        · exact Or.inr ⟨h1.resolve_left hma, hma, h2⟩

theorem warnAll_reg_default (m : Notice) (ms : List Notice) (reg : List Notice) :
    m ∈ (warnAll .default reg ms).2 ↔ m ∈ ms ∨ m ∈ reg := by
  induction ms generalizing reg with
  | nil => simp [warnAll]
  | cons a ms ih =>
    by_cases ha : a ∈ reg
    · simp only [warnAll, warnOne, ha, if_true, ih, List.mem_cons]
      constructor
      · rintro (h | h)
        · exact Or.inl (Or.inr h)
        · exact Or.inr h
      · rintro ((rfl | h) | h)
        · exact Or.inr ha
        · exact Or.inl h
        · exact Or.inr h
    · simp only [warnAll, warnOne, ha, if_false, ih, List.mem_cons]
      tauto

theorem warnAll_always (ms : List Notice) (reg : List Notice) : warnAll .always reg ms = (ms, reg) := by
  induction ms with
  | nil => rfl
  | cons a ms ih => simp [warnAll, warnOne, ih]

theorem session_length (act : WarnAction) (reg : List Notice) (qs : List (Reso × ℝ)) :
    (coverageSession act reg qs).length = qs.length := by
  induction qs generalizing reg with
  | nil => rfl
  | cons q qs ih =>
    obtain ⟨r, c⟩ := q
    unfold coverageSession
    cases r.coverageInterval c <;> simp [ih]

theorem notices_negative (ci : Reso.Cov) (n : Option ℤ) :
    Notice.negative n ∈ ci.notices ↔ ∃ x, ci.warnNegative = some x ∧ n = sixDigits x := by
  unfold Reso.Cov.notices
  cases h : ci.warnNegative <;> by_cases h2 : ci.warnInfinite <;> simp [h2]

/-- For Breit-Wigner and Gauss resonances the number is 50 whatever the coverage, reasonable or not. -/
theorem warnNegative_eq_fifty {r : Reso} (h : IsBreitWigner r ∨ IsGauss r) {c : ℝ} {ci : Reso.Cov}
    (hc : r.coverageInterval c = .ok ci) {x : Fl} (hx : ci.warnNegative = some x) : x = .fin 50 := by
  unfold Reso.coverageInterval at hc
  simp only [Bind.bind, Except.bind, cdf_default h] at hc
  split at hc
  · simp at hc
  split at hc
  · split at hc
    · simp only [Except.ok.injEq] at hc
      subst hc
      simp only [Option.some.injEq] at hx
      rw [← hx]
      simp [Fl.smul, Fl.add]
      norm_num
    · simp only [Except.ok.injEq] at hc
      subst hc
      simp at hx
  · simp at hc

/-! ## C173 -/

/-- What is printed, with the usual action: during call `i` exactly the warnings are printed that call `i` asks for, that no
earlier call has asked for, and that had not been printed before the program's first call (`reg`). -/
theorem C173_exact (qs : List (Reso × ℝ)) (reg : List Notice) (i : ℕ) (hi : i < qs.length) (m : Notice) :
    ∃ e, (coverageSession .default reg qs)[i]? = some e ∧ e.1 = (qs[i].1).coverageInterval qs[i].2 ∧
      (m ∈ e.2 ↔ m ∈ asked qs[i] ∧ m ∉ reg ∧ ∀ j (hj : j < i), m ∉ asked (qs[j]'(hj.trans hi))) := by
  induction qs generalizing reg i with
  | nil => simp at hi
  | cons q qs ih =>
    obtain ⟨r, c⟩ := q
    cases hc : r.coverageInterval c with
    | error err =>
      cases i with
      | zero =>
        refine ⟨(.error err, []), ?_, ?_, ?_⟩
        · simp [coverageSession, hc]
        · simp [hc]
        · simp [asked, hc]
      | succ i =>
        obtain ⟨e, h1, h2, h3⟩ := ih reg i (by simpa using hi)
        refine ⟨e, ?_, by simpa using h2, ?_⟩
        · simpa [coverageSession, hc] using h1
        · rw [h3]
          simp only [List.getElem_cons_succ]
          constructor
          · rintro ⟨a1, a2, a3⟩
            refine ⟨a1, a2, fun j hj => ?_⟩
            cases j with
            | zero => simp [asked, hc]
            | succ j => simpa using a3 j (by omega)
          · rintro ⟨a1, a2, a3⟩
            exact ⟨a1, a2, fun j hj => by simpa using a3 (j + 1) (by omega)⟩
    | ok ci =>
      cases i with
      | zero =>
        refine ⟨(.ok ci, (warnAll .default reg ci.notices).1), ?_, ?_, ?_⟩
        · simp [coverageSession, hc]
        · simp [hc]
        · simp [asked, hc, warnAll_mem_default]
      | succ i =>
        obtain ⟨e, h1, h2, h3⟩ := ih (warnAll .default reg ci.notices).2 i (by simpa using hi)
        refine ⟨e, ?_, by simpa using h2, ?_⟩
        · simpa [coverageSession, hc] using h1
        · rw [h3, warnAll_reg_default]
          simp only [List.getElem_cons_succ]
          constructor
          · rintro ⟨a1, a2, a3⟩
            refine ⟨a1, fun h => a2 (Or.inr h), fun j hj => ?_⟩
            cases j with
            | zero => simpa [asked, hc] using fun h => a2 (Or.inl h)
            | succ j => simpa using a3 j (by omega)
          · rintro ⟨a1, a2, a3⟩
            refine ⟨a1, ?_, fun j hj => by simpa using a3 (j + 1) (by omega)⟩
            rintro (h | h)
            · have := a3 0 (by omega)
              simp [asked, hc] at this
              exact this h
            · exact a2 h

/-- C173 is false: in a program that works with Breit-Wigner and Gauss resonances, any number of them with any coverages,
the user is told about negative lower limits during one call at most. -/
theorem C173_once (qs : List (Reso × ℝ)) (hq : ∀ q ∈ qs, IsBreitWigner q.1 ∨ IsGauss q.1) (i j : ℕ)
    (e e' : Except Err Reso.Cov × List Notice) (hi : (coverageSession .default [] qs)[i]? = some e)
    (hj : (coverageSession .default [] qs)[j]? = some e') (h : Announced e) (h' : Announced e') : i = j := by
  have key : ∀ (i j : ℕ) (e e' : Except Err Reso.Cov × List Notice), i < j → (coverageSession .default [] qs)[i]? = some e →
      (coverageSession .default [] qs)[j]? = some e' → Announced e → ¬ Announced e' := by
    rintro i j e e' hij hi hj ⟨n, hn⟩ ⟨n', hn'⟩
    have hjl : j < qs.length := by
      rw [← session_length .default [] qs]
      exact (List.getElem?_eq_some_iff.mp hj).1
    obtain ⟨e1, a1, -, a3⟩ := C173_exact qs [] i (hij.trans hjl) (.negative n)
    rw [hi] at a1; cases a1
    obtain ⟨e2, b1, -, b3⟩ := C173_exact qs [] j hjl (.negative n')
    rw [hj] at b1; cases b1
    obtain ⟨m1, -, -⟩ := a3.mp hn
    obtain ⟨m2, -, m3⟩ := b3.mp hn'
    have fifty : ∀ q ∈ qs, ∀ n, Notice.negative n ∈ asked q → n = sixDigits (.fin 50) := by
      intro q hqm n hn
      unfold asked at hn
      cases hc : q.1.coverageInterval q.2 with
      | error err => simp [hc] at hn
      | ok ci =>
        simp only [hc, notices_negative] at hn
        obtain ⟨x, hx, rfl⟩ := hn
        rw [warnNegative_eq_fifty (hq q hqm) hc hx]
    have e1 := fifty _ (List.getElem_mem (hij.trans hjl)) n m1
    have e2 := fifty _ (List.getElem_mem hjl) n' m2
    exact m3 i hij (by rw [e2, ← e1]; exact m1)
  rcases lt_trichotomy i j with hlt | heq | hgt
  · exact absurd h' (key i j e e' hlt hi hj h)
  · exact heq
  · exact absurd h (key j i e' e hgt hj hi h')

/-- C173 is false, concretely: for any two Breit-Wigner or Gauss resonances there are coverages below 1 for which the
program asks both for their intervals, obtains a negative lower limit from both, and the second one is not announced. -/
theorem C173_refuted {r r' : Reso} (h : IsBreitWigner r ∨ IsGauss r) (h' : IsBreitWigner r' ∨ IsGauss r') :
    ∃ c c' e e', 0 ≤ c ∧ c < 1 ∧ 0 ≤ c' ∧ c' < 1 ∧ coverageSession .default [] [(r, c), (r', c')] = [e, e'] ∧
      Unphysical e ∧ Announced e ∧ Unphysical e' ∧ ¬ Announced e' := by
  obtain ⟨c, ci, h0, h1, hci, hw⟩ := C18_warning_occurs h
  obtain ⟨c', ci', h0', h1', hci', hw'⟩ := C18_warning_occurs h'
  have hlen := session_length .default [] [(r, c), (r', c')]
  obtain ⟨e, a1, a2, a3⟩ := C173_exact [(r, c), (r', c')] [] 0 (by simp) (.negative (sixDigits (.fin 50)))
  obtain ⟨e', b1, b2, -⟩ := C173_exact [(r, c), (r', c')] [] 1 (by simp) .infinite
  have he : Announced e := by
    refine ⟨_, a3.mpr ⟨?_, by simp, by simp⟩⟩
    simp only [List.getElem_cons_zero, asked, hci, notices_negative]
    exact ⟨_, hw, rfl⟩
  refine ⟨c, c', e, e', h0, h1, h0', h1', ?_, ?_, he, ?_, fun he' => ?_⟩
  · generalize coverageSession .default [] [(r, c), (r', c')] = l at *
    match l with
    | [] => simp at hlen
    | [_] => simp at hlen
    | [x, y] => simp at a1 b1; rw [a1, b1]
    | _ :: _ :: _ :: _ => simp at hlen
  · exact ⟨ci, by simpa [hci] using a2, ((C17_partial r c ci hci).1.mp (by simp [hw]))⟩
  · exact ⟨ci', by simpa [hci'] using b2, ((C17_partial r' c' ci' hci').1.mp (by simp [hw']))⟩
  · have := C173_once [(r, c), (r', c')] (by simp [h, h']) 0 1 e e' a1 b1 he he'
    omega

/-- C173, the part that holds: the first unphysical interval of a program is announced, and with the action `"always"`
every one of them is, for all kinds of resonances. Missing: the later ones under the usual action (`C173_refuted`). -/
theorem C173_partial (qs : List (Reso × ℝ)) (i : ℕ) (hi : i < qs.length) :
    (∃ e, (coverageSession .always [] qs)[i]? = some e ∧ (Announced e ↔ Unphysical e) ∧
      (Notice.infinite ∈ e.2 ↔ ∃ ci, e.1 = .ok ci ∧ ci.hi.isInf)) ∧
    ((∀ j (hj : j < i), ∀ n, Notice.negative n ∉ asked (qs[j]'(hj.trans hi))) →
      ∃ e, (coverageSession .default [] qs)[i]? = some e ∧ (Announced e ↔ Unphysical e)) := by
  constructor
  · have key : ∀ (qs : List (Reso × ℝ)) (i : ℕ) (hi : i < qs.length), ∃ e,
        (coverageSession .always [] qs)[i]? = some e ∧ e.1 = qs[i].1.coverageInterval qs[i].2 ∧ e.2 = asked qs[i] := by
      intro qs
      induction qs with
      | nil => intro i hi; simp at hi
      | cons q qs ih =>
        obtain ⟨r, c⟩ := q
        intro i hi
        cases i with
        | zero =>
          cases hc : r.coverageInterval c with
          | error err => exact ⟨(.error err, []), by simp [coverageSession, hc], by simp [hc], by simp [asked, hc]⟩
          | ok ci =>
            exact ⟨(.ok ci, ci.notices), by simp [coverageSession, hc, warnAll_always], by simp [hc], by simp [asked, hc]⟩
        | succ i =>
          obtain ⟨e, h1, h2, h3⟩ := ih i (by simpa using hi)
          refine ⟨e, ?_, by simpa using h2, by simpa using h3⟩
          cases hc : r.coverageInterval c with
          | error err => simpa [coverageSession, hc] using h1
          | ok ci => simpa [coverageSession, hc, warnAll_always] using h1
    obtain ⟨e, h1, h2, h3⟩ := key qs i hi
    refine ⟨e, h1, ?_, ?_⟩
    · unfold Announced Unphysical
      rw [h2, h3, asked]
      cases hc : (qs[i].1).coverageInterval qs[i].2 with
      | error err => simp
      | ok ci =>
        simp only [notices_negative, Except.ok.injEq, exists_eq_left']
        rw [← (C17_partial _ _ _ hc).1, Option.isSome_iff_exists]
        exact ⟨fun ⟨n, x, hx, _⟩ => ⟨x, hx⟩, fun ⟨x, hx⟩ => ⟨_, x, hx, rfl⟩⟩
    · rw [h2, h3, asked]
      cases hc : (qs[i].1).coverageInterval qs[i].2 with
      | error err => simp
      | ok ci =>
        simp only [Except.ok.injEq, exists_eq_left']
        rw [← (C17_partial _ _ _ hc).2]
        unfold Reso.Cov.notices
        cases ci.warnNegative <;> by_cases h2 : ci.warnInfinite <;> simp [h2]
  · intro hno
    obtain ⟨e, h1, h2, -⟩ := C173_exact qs [] i hi .infinite
    refine ⟨e, h1, ?_⟩
    have hmem : ∀ n, Notice.negative n ∈ e.2 ↔ Notice.negative n ∈ asked qs[i] := by
      intro n
      obtain ⟨e', h1', -, h3⟩ := C173_exact qs [] i hi (.negative n)
      rw [h1] at h1'; cases h1'
      rw [h3]
      exact ⟨fun h => h.1, fun h => ⟨h, by simp, fun j hj => hno j hj n⟩⟩
    unfold Announced Unphysical
    simp only [hmem]
    rw [h2, asked]
    cases hc : (qs[i].1).coverageInterval qs[i].2 with
    | error err => simp
    | ok ci =>
      simp only [notices_negative, Except.ok.injEq, exists_eq_left']
      rw [← (C17_partial _ _ _ hc).1, Option.isSome_iff_exists]
      exact ⟨fun ⟨n, x, hx, _⟩ => ⟨x, hx⟩, fun ⟨x, hx⟩ => ⟨_, x, hx, rfl⟩⟩

/-- Resonances whose warnings carry different numbers, as for pseudo-Voigt resonances, where the number is the reachable
coverage (`C18_partial`): an unphysical interval is announced although another one has
been before, if the numbers differ by a millionth of a percent or more. -/
theorem C173_different_numbers {q q' : Reso × ℝ} {ci ci' : Reso.Cov} {v v' : ℝ} (h : q.1.coverageInterval q.2 = .ok ci)
    (h' : q'.1.coverageInterval q'.2 = .ok ci') (hw : ci.warnNegative = some (.fin v))
    (hw' : ci'.warnNegative = some (.fin v')) (hne : 1 ≤ 1000000 * |v - v'|) :
    ∃ e e', coverageSession .default [] [q, q'] = [e, e'] ∧ Announced e ∧ Announced e' := by
  have hd : ⌊v * 1000000 + 1 / 2⌋ ≠ ⌊v' * 1000000 + 1 / 2⌋ := by
    intro heq
    have := Int.abs_sub_lt_one_of_floor_eq_floor heq
    rw [show v * 1000000 + 1 / 2 - (v' * 1000000 + 1 / 2) = 1000000 * (v - v') by ring, abs_mul,
      abs_of_pos (by norm_num : (0 : ℝ) < 1000000)] at this
    linarith
  have hlen := session_length .default [] [q, q']
  obtain ⟨e, a1, -, a3⟩ := C173_exact [q, q'] [] 0 (by simp) (.negative (sixDigits (.fin v)))
  obtain ⟨e', b1, -, b3⟩ := C173_exact [q, q'] [] 1 (by simp) (.negative (sixDigits (.fin v')))
  refine ⟨e, e', ?_, ⟨_, a3.mpr ⟨?_, by simp, by simp⟩⟩, ⟨_, b3.mpr ⟨?_, by simp, ?_⟩⟩⟩
  · generalize coverageSession .default [] [q, q'] = l at *
    match l with
    | [] => simp at hlen
    | [_] => simp at hlen
    | [x, y] => simp at a1 b1; rw [a1, b1]
    | _ :: _ :: _ :: _ => simp at hlen
  · simp only [List.getElem_cons_zero, asked, h, notices_negative]
    exact ⟨_, hw, rfl⟩
  · simp only [List.getElem_cons_succ, List.getElem_cons_zero, asked, h', notices_negative]
    exact ⟨_, hw', rfl⟩
  · intro j hj
    have : j = 0 := by omega
    subst this
    simp only [List.getElem_cons_zero, asked, h, notices_negative, hw, Option.some.injEq]
    rintro ⟨x, rfl, hx⟩
    simp only [sixDigits, Option.some.injEq] at hx
    exact hd hx.symm

/-- The hypotheses can be met: two resonances with unphysical intervals. -/
example : ∃ r r' : Reso, (IsBreitWigner r ∨ IsGauss r) ∧ (IsBreitWigner r' ∨ IsGauss r') := by
  obtain ⟨r, h⟩ := exIsBreitWigner
  exact ⟨r, r, Or.inl h, Or.inl h⟩

/-- A Breit-Wigner resonance and a resonance with a uniform distribution, the warnings of which say 50 % and 100 %. -/
example : ∃ (q q' : Reso × ℝ) (ci ci' : Reso.Cov) (v v' : ℝ), q.1.coverageInterval q.2 = .ok ci ∧
    q'.1.coverageInterval q'.2 = .ok ci' ∧ ci.warnNegative = some (.fin v) ∧ ci'.warnNegative = some (.fin v') ∧
    1 ≤ 1000000 * |v - v'| := by
  obtain ⟨r, h⟩ := exIsBreitWigner
  obtain ⟨c, ci, h0, h1, hci, hw⟩ := C18_warning_occurs (Or.inl h)
  have hu : Reso.coverageInterval { r with dist := uniformDist, params := [-1, 3] } 0.9
      = .ok ⟨.fin (-1 + 3 * 0.05), .fin (-1 + 3 * 0.95), some (.fin 100), False⟩ := by
    unfold Reso.coverageInterval
    have e1 : uniformDist.ppf [-1, 3] [.fin (0.5 * (1 - 0.9)), .fin (0.5 * (1 + 0.9))]
        = .ok (some [.fin (-1 + 3 * 0.05), .fin (-1 + 3 * 0.95)]) := by
      simp [uniformDist, scipyDist, locScale, Bind.bind, Except.bind, ppfAt]
      norm_num
    have e2 : uniformDist.cdf [] [0] = .ok [.fin 0] := by
      simp [uniformDist, scipyDist, locScale, Bind.bind, Except.bind, uniformCdf]
    simp only [e1, e2, Bind.bind, Except.bind]
    norm_num [Fl.isNeg, Fl.isInf, Fl.smul, Fl.add]
  refine ⟨(r, c), ({ r with dist := uniformDist, params := [-1, 3] }, 0.9), ci, _, 50, 100, hci, hu, hw, rfl, ?_⟩
  norm_num

end Ries
