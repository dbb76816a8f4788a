import Verif.Spec.XrmacFormat
import Mathlib.Data.Nat.Digits.Lemmas
import Mathlib.Tactic.FinCases
import Mathlib.Tactic.Linarith

/-! # Lemmas on text -/

namespace Ries

open Text

theorem digit?_digitChar (d : Fin 10) : digit? (digitChar d) = some d.val := by
  revert d; decide

theorem digitChar_ne (d : Fin 10) : digitChar d ≠ ' ' ∧ digitChar d ≠ '\n' ∧ digitChar d ≠ '.' ∧
    digitChar d ≠ '-' ∧ digitChar d ≠ '+' ∧ digitChar d ≠ '(' ∧ isWs (digitChar d) = false := by
  revert d; decide

theorem spanDigits_append (ds : List (Fin 10)) (r : Str) (hr : ∀ c t, r = c :: t → digit? c = none) :
    spanDigits (ds.map digitChar ++ r) = (ds.map Fin.val, r) := by
  induction ds with
  | nil =>
    cases r with
    | nil => rfl
    | cons c t => simp [spanDigits, hr c t rfl]
  | cons d ds ih => simp [spanDigits, digit?_digitChar, ih]

theorem natOf_aux (ds : List ℕ) (a : ℕ) :
    ds.foldl (fun a d => 10 * a + d) a = a * 10 ^ ds.length + Nat.ofDigits 10 ds.reverse := by
  induction ds generalizing a with
  | nil => simp
  | cons d ds ih =>
    simp only [List.foldl_cons, ih, List.reverse_cons, Nat.ofDigits_append, List.length_cons,
      List.length_reverse, Nat.ofDigits_singleton]
    ring

theorem natOf_eq (ds : List ℕ) : natOf ds = Nat.ofDigits 10 ds.reverse := by
  simp [natOf, natOf_aux]

theorem strip_eq {s : Str} (h1 : ∀ c t, s = c :: t → isWs c = false)
    (h2 : ∀ c t, s = t ++ [c] → isWs c = false) : strip s = s := by
  unfold strip
  have e1 : s.dropWhile isWs = s := by
    cases s with
    | nil => rfl
    | cons c t => simp [h1 c t rfl]
  rw [e1]
  rcases List.eq_nil_or_concat s with rfl | ⟨t, c, rfl⟩
  · rfl
  · have := h2 c t (by simp)
    simp [this]

/-- no blanks inside -/
def NoBlank (s : Str) : Prop := ∀ c ∈ s, c ≠ ' '

theorem splitTwo_append {a : Str} (ha : NoBlank a) (rest cur : Str) :
    splitTwo (a ++ ' ' :: ' ' :: rest) cur = (cur.reverse ++ a) :: splitTwo rest [] := by
  induction a generalizing cur with
  | nil => simp [splitTwo]
  | cons c a ih =>
    have hc : c ≠ ' ' := ha c (by simp)
    have ih := ih (fun d hd => ha d (by simp [hd])) (c :: cur)
    cases a with
    | nil =>
      simp only [List.cons_append, List.nil_append] at ih ⊢
      rw [splitTwo, if_neg (by simp [hc]), ih]
      simp
    | cons d a =>
      simp only [List.cons_append] at ih ⊢
      rw [splitTwo, if_neg (by simp [hc]), ih]
      simp

theorem splitTwo_end {a : Str} (ha : NoBlank a) (cur : Str) :
    splitTwo a cur = [cur.reverse ++ a] := by
  induction a generalizing cur with
  | nil => simp [splitTwo]
  | cons c a ih =>
    have hc : c ≠ ' ' := ha c (by simp)
    have ih := ih (fun d hd => ha d (by simp [hd])) (c :: cur)
    cases a with
    | nil => simp [splitTwo]
    | cons d a =>
      rw [splitTwo, if_neg (by simp [hc]), ih]
      simp

theorem linesAux_append {a : Str} (ha : '\n' ∉ a) (rest cur : Str) :
    linesAux (a ++ '\n' :: rest) cur = (cur.reverse ++ a ++ ['\n']) :: linesAux rest [] := by
  induction a generalizing cur with
  | nil => simp [linesAux]
  | cons c a ih =>
    have hc : c ≠ '\n' := fun h => ha (by simp [h])
    simp only [List.cons_append, linesAux, if_neg hc]
    rw [ih (fun h => ha (by simp [h]))]
    simp

theorem lines_append {a : Str} (ha : '\n' ∉ a) (rest : Str) :
    lines (a ++ '\n' :: rest) = (a ++ ['\n']) :: lines rest := by
  simp [lines, linesAux_append ha]

theorem linesAux_end {a : Str} (ha : '\n' ∉ a) (cur : Str) (hne : cur.reverse ++ a ≠ []) :
    linesAux a cur = [cur.reverse ++ a] := by
  induction a generalizing cur with
  | nil =>
    have : cur ≠ [] := by simpa using hne
    simp [linesAux, this]
  | cons c a ih =>
    have hc : c ≠ '\n' := fun h => ha (by simp [h])
    simp only [linesAux, if_neg hc]
    rw [ih (fun h => ha (by simp [h])) _ (by simp)]
    simp

theorem lines_end {a : Str} (ha : '\n' ∉ a) (hne : a ≠ []) : lines a = [a] := by
  rw [lines, linesAux_end ha _ (by simpa using hne)]
  simp

/-- texts that consist of complete lines -/
theorem lines_flatMap {α : Type} (f : α → Str) (xs : List α)
    (h : ∀ x ∈ xs, '\n' ∉ f x) (rest : Str) :
    lines (xs.flatMap (fun x => f x ++ ['\n']) ++ rest) =
      xs.map (fun x => f x ++ ['\n']) ++ lines rest := by
  induction xs with
  | nil => simp
  | cons x xs ih =>
    have ih := ih fun y hy => h y (by simp [hy])
    simp only [List.flatMap_cons, List.append_assoc, List.map_cons, List.cons_append,
      List.nil_append]
    rw [lines_append (h x (by simp)), ih]

/-! ## Numbers -/

namespace Sci

theorem render_noWs (x : Sci) : ∀ c ∈ x.render, isWs c = false ∧ c ≠ '\n' ∧ c ≠ ' ' := by
  intro c hc
  have hd : ∀ d : Fin 10, isWs (digitChar d) = false ∧ digitChar d ≠ '\n' ∧ digitChar d ≠ ' ' :=
    fun d => ⟨(digitChar_ne d).2.2.2.2.2.2, (digitChar_ne d).2.1, (digitChar_ne d).1⟩
  simp only [render, List.mem_cons, List.mem_append, List.mem_map, List.not_mem_nil, or_false] at hc
  rcases hc with rfl | rfl | ⟨d, -, rfl⟩ | rfl | rfl | rfl | rfl
  · exact hd _
  · decide
  · exact hd _
  · decide
  · cases x.eneg <;> decide
  · exact hd _
  · exact hd _

theorem render_ne_nil (x : Sci) : x.render ≠ [] := by simp [render]

theorem strip_noWs {s : Str} (h : ∀ c ∈ s, isWs c = false) : strip s = s :=
  strip_eq (fun c t e => h c (by simp [e])) (fun c t e => h c (by simp [e]))

/-- reading a mantissa with any exponent digits -/
theorem parseFloat_sci (d0 : Fin 10) (ds : List (Fin 10)) (eneg : Bool) (es : List (Fin 10))
    (hes : es ≠ []) :
    parseFloat (digitChar d0 :: '.' :: (ds.map digitChar ++
      'E' :: (if eneg then '-' else '+') :: es.map digitChar)) =
    .ok (((Nat.ofDigits 10 ((d0 :: ds).map Fin.val).reverse : ℕ) : ℚ) / 10 ^ ds.length *
      (if eneg then (10 ^ Nat.ofDigits 10 (es.map Fin.val).reverse)⁻¹
        else 10 ^ Nat.ofDigits 10 (es.map Fin.val).reverse)) := by
  set s := digitChar d0 :: '.' :: (ds.map digitChar ++
      'E' :: (if eneg then '-' else '+') :: es.map digitChar) with hs
  have hws : strip s = s := by
    refine strip_noWs fun c hc => ?_
    simp only [hs, List.mem_cons, List.mem_append, List.mem_map] at hc
    rcases hc with rfl | rfl | ⟨d, -, rfl⟩ | rfl | rfl | ⟨d, -, rfl⟩
    · exact (digitChar_ne _).2.2.2.2.2.2
    · decide
    · exact (digitChar_ne _).2.2.2.2.2.2
    · decide
    · cases eneg <;> decide
    · exact (digitChar_ne _).2.2.2.2.2.2
  have hsign : spanSign s = (false, s) := by
    have h1 := (digitChar_ne d0).2.2.2.1
    have h2 := (digitChar_ne d0).2.2.2.2.1
    rw [hs]
    unfold spanSign
    split
    · rename_i heq
      simp only [List.cons.injEq] at heq
      exact absurd heq.1 h1
    · rename_i heq
      simp only [List.cons.injEq] at heq
      exact absurd heq.1 h2
    · rfl
  have h1 : spanDigits s = ([d0.val], '.' :: (ds.map digitChar ++
      'E' :: (if eneg then '-' else '+') :: es.map digitChar)) :=
    spanDigits_append [d0] _ (by rintro c t h; cases h; decide)
  have h2 : spanFrac ('.' :: (ds.map digitChar ++ 'E' :: (if eneg then '-' else '+') ::
      es.map digitChar)) = (ds.map Fin.val, 'E' :: (if eneg then '-' else '+') :: es.map digitChar) :=
    spanDigits_append ds _ (by rintro c t h; cases h; decide)
  have h3 : spanSign ((if eneg then '-' else '+') :: es.map digitChar) =
      (eneg, es.map digitChar) := by cases eneg <;> rfl
  have h4 : spanDigits (es.map digitChar) = (es.map Fin.val, []) := by
    have := spanDigits_append es [] (by simp)
    simpa using this
  unfold parseFloat
  simp only [hws, hsign, h1, h2]
  rw [if_neg (by simp)]
  simp only [h3, h4]
  simp only [or_true, if_true]
  rw [if_neg (by simpa using hes)]
  cases eneg <;> simp [decVal, natOf_eq]

theorem parse_render (x : Sci) : parseFloat x.render = .ok x.value := by
  have h := parseFloat_sci x.d0 x.ds x.eneg [x.e1, x.e2] (by simp)
  have e : x.render = digitChar x.d0 :: '.' :: (x.ds.map digitChar ++
      'E' :: (if x.eneg then '-' else '+') :: [x.e1, x.e2].map digitChar) := by
    simp [render]
  rw [e, h]
  congr 1
  unfold value mantissa exponent
  have : Nat.ofDigits 10 ([x.e1, x.e2].map Fin.val).reverse = 10 * x.e1.val + x.e2.val := by
    simp [Nat.ofDigits]
    ring
  rw [this]
  cases x.eneg
  · simp only [Bool.false_eq_true, if_false]
    congr 1
  · simp only [if_true]
    congr 1
    rw [zpow_neg]
    congr 1

end Sci
end Ries
