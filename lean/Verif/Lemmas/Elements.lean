import Verif.Spec.ElementsFormat
import Verif.Lemmas.XrmacReader

/-! # Lemmas on the element readers -/

namespace Ries

open Text

/-! ## Numbers -/

/-- all characters are white space -/
def AllWs (s : Str) : Prop := ∀ c ∈ s, isWs c = true

theorem dropWhile_ws {a s : Str} (ha : AllWs a) (hs : ∀ c t, s = c :: t → isWs c = false) :
    (a ++ s).dropWhile isWs = s := by
  induction a with
  | nil =>
    cases s with
    | nil => rfl
    | cons c t => simp [hs c t rfl]
  | cons c a ih =>
    rw [List.cons_append, List.dropWhile_cons, if_pos (ha c (by simp))]
    exact ih fun d hd => ha d (by simp [hd])

theorem strip_ws {a s b : Str} (ha : AllWs a) (hb : AllWs b) (hs : ∀ c ∈ s, isWs c = false)
    (hne : s ≠ []) : strip (a ++ s ++ b) = s := by
  unfold strip
  rw [List.append_assoc, dropWhile_ws ha, List.reverse_append, dropWhile_ws]
  · simp
  · intro c hc
    exact hb c (by simpa using hc)
  · intro c t h
    exact hs c (by
      have : c ∈ s.reverse := by rw [h]; simp
      simpa using this)
  · intro c t h
    obtain ⟨d, s', rfl⟩ := List.exists_cons_of_ne_nil hne
    have : c = d := by
      rw [List.cons_append] at h
      exact (List.cons.inj h).1.symm
    exact hs c (by simp [this])

namespace Dec

theorem render_char (x : Dec) : ∀ c ∈ x.render,
    (∃ d, c = digitChar d) ∨ c = '.' ∨ c = 'e' ∨ c = '-' := by
  intro c hc
  simp only [render, List.mem_append, List.mem_map] at hc
  rcases hc with (⟨d, -, rfl⟩ | hc) | hc
  · exact .inl ⟨d, rfl⟩
  · cases hf : x.fp with
    | none => simp [hf, fracChars] at hc
    | some ds =>
      simp only [hf, fracChars, List.mem_cons, List.mem_map] at hc
      rcases hc with rfl | ⟨d, -, rfl⟩
      · exact .inr (.inl rfl)
      · exact .inl ⟨d, rfl⟩
  · cases he : x.exp with
    | none => simp [he, expChars] at hc
    | some e =>
      obtain ⟨neg, ds⟩ := e
      simp only [he, expChars, List.mem_cons, List.mem_append, List.mem_map] at hc
      rcases hc with rfl | hc | ⟨d, -, rfl⟩
      · exact .inr (.inr (.inl rfl))
      · cases neg
        · simp at hc
        · exact .inr (.inr (.inr (by simpa using hc)))
      · exact .inl ⟨d, rfl⟩

theorem digitChar_all (d : Fin 10) : isWs (digitChar d) = false ∧ digitChar d ≠ '\n' ∧
    digitChar d ≠ '=' ∧ digitChar d ≠ '(' ∧ digitChar d ≠ ' ' := by
  revert d; decide

theorem render_safe (x : Dec) : ∀ c ∈ x.render,
    isWs c = false ∧ c ≠ '\n' ∧ c ≠ '=' ∧ c ≠ '(' ∧ c ≠ ' ' := by
  intro c hc
  rcases x.render_char c hc with ⟨d, rfl⟩ | rfl | rfl | rfl
  · exact digitChar_all d
  all_goals decide

theorem render_ne_nil {x : Dec} (h : x.Valid) : x.render ≠ [] := by
  have := h.1
  simp [render, this]

theorem ofDigits_eq (ds : List (Fin 10)) : natOf (ds.map Fin.val) = nat ds := natOf_eq _

/-- reading a number surrounded by white space -/
theorem parse {x : Dec} (h : x.Valid) {a b : Str} (ha : AllWs a) (hb : AllWs b) :
    parseFloat (a ++ x.render ++ b) = .ok x.value := by
  have hstrip : strip (a ++ x.render ++ b) = x.render :=
    strip_ws ha hb (fun c hc => (x.render_safe c hc).1) (render_ne_nil h)
  obtain ⟨ip, fp, exp⟩ := x
  obtain ⟨hip, hexp⟩ := h
  simp only at hip hexp
  -- the exponent part
  set E : Str := expChars exp with hE
  set F : Str := fracChars fp with hF
  have hr : render ⟨ip, fp, exp⟩ = ip.map digitChar ++ (F ++ E) := by
    simp only [render, List.append_assoc, hE, hF]
  have hE0 : ∀ c t, E = c :: t → digit? c = none ∧ c = 'e' := by
    intro c t h
    rw [hE] at h
    cases exp with
    | none => simp [expChars] at h
    | some e =>
      obtain ⟨neg, ds⟩ := e
      have : c = 'e' := (List.cons.inj h).1.symm
      subst this
      exact ⟨by decide, rfl⟩
  have hFE0 : ∀ c t, F ++ E = c :: t → digit? c = none := by
    intro c t h
    rw [hF] at h
    cases fp with
    | none => exact (hE0 c t (by simpa [fracChars] using h)).1
    | some ds =>
      have : c = '.' := (List.cons.inj h).1.symm
      subst this
      decide
  have hsign : spanSign (ip.map digitChar ++ (F ++ E)) = (false, ip.map digitChar ++ (F ++ E)) := by
    obtain ⟨d, ip', rfl⟩ := List.exists_cons_of_ne_nil hip
    have h1 := (digitChar_ne d).2.2.2.1
    have h2 := (digitChar_ne d).2.2.2.2.1
    unfold spanSign
    split
    · rename_i heq
      simp only [List.map_cons, List.cons_append, List.cons.injEq] at heq
      exact absurd heq.1 h1
    · rename_i heq
      simp only [List.map_cons, List.cons_append, List.cons.injEq] at heq
      exact absurd heq.1 h2
    · rfl
  have hdig : spanDigits (ip.map digitChar ++ (F ++ E)) = (ip.map Fin.val, F ++ E) :=
    spanDigits_append ip _ hFE0
  have hfrac : spanFrac (F ++ E) = ((fp.getD []).map Fin.val, E) := by
    cases fp with
    | none =>
      have : F = [] := rfl
      rw [this, List.nil_append]
      rcases hEE : E with _ | ⟨c, t⟩
      · rfl
      · have := (hE0 c t hEE).2
        subst this
        rfl
    | some ds =>
      have : F = '.' :: ds.map digitChar := rfl
      rw [this]
      exact spanDigits_append ds E fun c t h => (hE0 c t h).1
  have hne : ¬ (ip.map Fin.val = [] ∧ (fp.getD []).map Fin.val = []) := by
    simp [hip]
  unfold parseFloat
  rw [hstrip, hr, hsign]
  simp only [hdig, hfrac]
  rw [if_neg hne]
  have hval : decVal false (ip.map Fin.val) ((fp.getD []).map Fin.val) =
      (nat (ip ++ fp.getD []) : ℚ) / 10 ^ (fp.getD []).length := by
    rw [decVal, ← List.map_append, ofDigits_eq]
    simp
  cases exp with
  | none =>
    simp only [hE, expChars, hval]
    simp [value, scale, frac]
  | some e =>
    obtain ⟨neg, ds⟩ := e
    have hds : ds ≠ [] := hexp _ rfl
    have hspan : spanDigits (ds.map digitChar) = (ds.map Fin.val, []) := by
      have := spanDigits_append ds [] (by simp)
      simpa using this
    have hsg : spanSign ((if neg then ['-'] else []) ++ ds.map digitChar) =
        (neg, ds.map digitChar) := by
      cases neg with
      | true => rfl
      | false =>
        obtain ⟨d, ds', rfl⟩ := List.exists_cons_of_ne_nil hds
        have h1 := (digitChar_ne d).2.2.2.1
        have h2 := (digitChar_ne d).2.2.2.2.1
        unfold spanSign
        split
        · rename_i heq
          simp only [Bool.false_eq_true, if_false, List.nil_append, List.map_cons,
            List.cons.injEq] at heq
          exact absurd heq.1 h1
        · rename_i heq
          simp only [Bool.false_eq_true, if_false, List.nil_append, List.map_cons,
            List.cons.injEq] at heq
          exact absurd heq.1 h2
        · rfl
    simp only [hE, expChars, hsg, hspan, true_or, if_true]
    rw [if_neg (by simpa using hds), hval, ofDigits_eq]
    simp only [value, scale, frac]
    cases neg
    · simp
    · simp

theorem parse' {x : Dec} (h : x.Valid) : parseFloat x.render = .ok x.value := by
  have := parse h (a := []) (b := []) (by simp [AllWs]) (by simp [AllWs])
  simpa using this

end Dec

theorem toDigits_eq (n : ℕ) : ∃ ds : List (Fin 10), Nat.toDigits 10 n = ds.map digitChar ∧ ds ≠ [] ∧
    natOf (ds.map Fin.val) = n := by
  induction n using Nat.strong_induction_on with
  | _ n ih =>
    have hdc : ∀ d : Fin 10, Nat.digitChar d.val = digitChar d := by decide
    by_cases h : n < 10
    · exact ⟨[⟨n, h⟩], by rw [Nat.toDigits_of_lt_base h]; simp [← hdc], by simp, by simp [natOf]⟩
    · obtain ⟨ds, h1, h2, h3⟩ := ih (n / 10) (by omega)
      have hlt : n % 10 < 10 := Nat.mod_lt _ (by norm_num)
      refine ⟨ds ++ [⟨n % 10, hlt⟩], ?_, by simp, ?_⟩
      · rw [Nat.toDigits_of_base_le (by norm_num) (by omega), h1]
        simp [← hdc]
      · rw [natOf] at h3
        rw [natOf, List.map_append, List.foldl_append, h3]
        simp only [List.map_cons, List.map_nil, List.foldl_cons, List.foldl_nil]
        omega

theorem toDigits_safe (n : ℕ) : ∀ c ∈ Nat.toDigits 10 n,
    isWs c = false ∧ c ≠ '\n' ∧ c ≠ '=' ∧ c ≠ '(' ∧ c ≠ ' ' := by
  obtain ⟨ds, h, -, -⟩ := toDigits_eq n
  intro c hc
  rw [h] at hc
  obtain ⟨d, -, rfl⟩ := List.mem_map.1 hc
  exact Dec.digitChar_all d

theorem parseInt_toDigits (n : ℕ) : parseInt (Nat.toDigits 10 n) = .ok n := by
  have hstrip : strip (Nat.toDigits 10 n) = Nat.toDigits 10 n :=
    Sci.strip_noWs fun c hc => (toDigits_safe n c hc).1
  obtain ⟨ds, h1, h2, h3⟩ := toDigits_eq n
  have hspan : spanDigits (ds.map digitChar) = (ds.map Fin.val, []) := by
    have := spanDigits_append ds [] (by simp)
    simpa using this
  have hsg : spanSign (ds.map digitChar) = (false, ds.map digitChar) := by
    obtain ⟨d, ds', rfl⟩ := List.exists_cons_of_ne_nil h2
    have h1 := (digitChar_ne d).2.2.2.1
    have h2 := (digitChar_ne d).2.2.2.2.1
    unfold spanSign
    split
    · rename_i heq
      simp only [List.map_cons, List.cons.injEq] at heq
      exact absurd heq.1 h1
    · rename_i heq
      simp only [List.map_cons, List.cons.injEq] at heq
      exact absurd heq.1 h2
    · rfl
  unfold parseInt
  rw [hstrip, h1, hsg]
  simp only [hspan]
  rw [if_neg (by simpa using h2)]
  simp [h3]

theorem formatD_nat (n : ℕ) : formatD (n : ℤ) = Nat.toDigits 10 n := by
  simp [formatD]

/-! ## Searching -/

theorem contains_iff (q s : Str) : contains q s = true ↔ q <:+: s := by
  induction s with
  | nil =>
    simp only [contains, List.isPrefixOf_iff_prefix, List.prefix_nil, List.infix_nil]
  | cons c s ih =>
    simp only [contains, Bool.or_eq_true, List.isPrefixOf_iff_prefix, ih, List.infix_cons_iff]

/-- only one way to split at a character that occurs once -/
theorem split_unique {α : Type} [DecidableEq α] {a b c d : List α} {x : α} (h : a ++ x :: b = c ++ x :: d)
    (ha : x ∉ a) (hb : x ∉ b) : a = c ∧ b = d := by
  induction a generalizing c with
  | nil =>
    cases c with
    | nil => simpa using h
    | cons y c =>
      simp only [List.nil_append, List.cons_append, List.cons.injEq] at h
      exact absurd (by rw [h.2]; simp) hb
  | cons z a ih =>
    cases c with
    | nil =>
      simp only [List.nil_append, List.cons_append, List.cons.injEq] at h
      exact absurd (by simp [h.1]) ha
    | cons y c =>
      simp only [List.cons_append, List.cons.injEq] at h
      obtain ⟨h1, h2⟩ := ih h.2 (fun h' => ha (by simp [h']))
      exact ⟨by rw [h.1, h1], h2⟩

/-- a line `KEY = VALUE` contains `KEY' = ` only if `KEY` ends with `KEY'` -/
theorem infix_prop {k k' v : Str} (hk : '=' ∉ k) (hv : '=' ∉ v)
    (h : (k' ++ "= ".toList) <:+: (k ++ "= ".toList ++ v)) : k' <:+ k := by
  obtain ⟨s, t, h⟩ := h
  have e : "= ".toList = ['=', ' '] := rfl
  rw [e] at h
  have h' : k ++ '=' :: (' ' :: v) = (s ++ k') ++ '=' :: (' ' :: t) := by
    simpa using h.symm
  obtain ⟨h1, -⟩ := split_unique h' hk (by simp [hv])
  exact ⟨s, h1.symm⟩

theorem not_infix_of_no_eq {k l : Str} (hl : '=' ∉ l) : ¬ (k ++ "= ".toList) <:+: l := by
  intro h
  refine hl (h.subset ?_)
  have e : "= ".toList = ['=', ' '] := rfl
  rw [e]
  simp

end Ries
