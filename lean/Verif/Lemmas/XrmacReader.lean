import Verif.Lemmas.Text

/-! # Lemmas on the table reader -/

namespace Ries

open Text

theorem isDigit_of {c : Char} : isDigit c = true ↔ '0' ≤ c ∧ c ≤ '9' := by
  have h : ('0' ≤ c ∧ c ≤ '9') ↔ (48 ≤ c.toNat ∧ c.toNat ≤ 57) := by
    simp only [Char.le_def, UInt32.le_iff_toNat_le]
    rfl
  rw [h]
  unfold isDigit digit?
  split_ifs with h1 <;> simp [h1]

theorem isDigit_digitChar (d : Fin 10) : isDigit (digitChar d) = true := by
  simp [isDigit, digit?_digitChar]

namespace Line

theorem noBlank (x : Sci) : NoBlank x.render := fun c hc => (x.render_noWs c hc).2.2

theorem body_no_newline (l : Line) (h : '\n' ∉ l.label) : '\n' ∉ l.body := by
  have hs : ∀ x : Sci, '\n' ∉ x.render := fun x hx => (x.render_noWs _ hx).2.1 rfl
  simp [body, h, hs]

/-- reading one complete line -/
theorem read (ec xc : ℝ → ℝ) (l : Line) :
    readXrmacLine ec xc l.label.length l.render = .ok (l.row ec xc) := by
  have e : slice l.render l.label.length 2 =
      l.energy.render ++ ' ' :: ' ' :: (l.mu.render ++ ' ' :: ' ' :: l.muEn.render) := by
    have : l.render.length - 2 = l.body.length := by simp [render]
    rw [slice, this, render, List.take_left, body, List.drop_left]
  unfold readXrmacLine
  rw [e, splitTwo_append (noBlank _), splitTwo_append (noBlank _), splitTwo_end (noBlank _)]
  simp [Sci.parse_render, bind, Except.bind, row]

/-- reading a last line without newline: the last character of the third number is lost -/
theorem read_truncated (ec xc : ℝ → ℝ) (l : Line) :
    readXrmacLine ec xc l.label.length (l.body ++ [' ']) =
      .ok (ec (l.energy.value : ℝ), xc (l.mu.value : ℝ), xc ((l.muEn.mantissa *
        (if l.muEn.eneg then (10 ^ l.muEn.e1.val)⁻¹ else 10 ^ l.muEn.e1.val) : ℚ) : ℝ)) := by
  set t := digitChar l.muEn.d0 :: '.' :: (l.muEn.ds.map digitChar ++
      'E' :: (if l.muEn.eneg then '-' else '+') :: [l.muEn.e1].map digitChar) with ht
  have hrender : l.muEn.render = t ++ [digitChar l.muEn.e2] := by
    simp [ht, Sci.render]
  have htb : NoBlank t := fun c hc => (l.muEn.render_noWs c (by rw [hrender]; simp [hc])).2.2
  have e : slice (l.body ++ [' ']) l.label.length 2 =
      l.energy.render ++ ' ' :: ' ' :: (l.mu.render ++ ' ' :: ' ' :: t) := by
    have hb : l.body ++ [' '] = (l.label ++ (l.energy.render ++ ' ' :: ' ' :: (l.mu.render ++
        ' ' :: ' ' :: t))) ++ [digitChar l.muEn.e2, ' '] := by
      simp [body, hrender]
    rw [slice, hb]
    have : ((l.label ++ (l.energy.render ++ ' ' :: ' ' :: (l.mu.render ++
        ' ' :: ' ' :: t))) ++ [digitChar l.muEn.e2, ' ']).length - 2 =
        (l.label ++ (l.energy.render ++ ' ' :: ' ' :: (l.mu.render ++ ' ' :: ' ' :: t))).length := by
      simp only [List.length_append, List.length_cons, List.length_nil]
      omega
    rw [this, List.take_left, List.drop_left]
  have hp := Sci.parseFloat_sci l.muEn.d0 l.muEn.ds l.muEn.eneg [l.muEn.e1] (by simp)
  unfold readXrmacLine
  rw [e, splitTwo_append (noBlank _), splitTwo_append (noBlank _), splitTwo_end htb]
  simp only [List.reverse_nil, List.nil_append, Sci.parse_render, bind, Except.bind, ht, hp]
  simp [Sci.mantissa]

end Line

theorem mapM_ok {α β : Type} {f : α → Except Err β} {g : α → β} {xs : List α}
    (h : ∀ x ∈ xs, f x = .ok (g x)) : xs.mapM f = .ok (xs.map g) := by
  induction xs with
  | nil => rfl
  | cons x xs ih =>
    simp [List.mapM_cons, h x (by simp), ih fun y hy => h y (by simp [hy]), bind, Except.bind, pure,
      Except.pure]

theorem mapM_append_ok {α β : Type} {f : α → Except Err β} {xs ys : List α} {a b : List β}
    (hx : xs.mapM f = .ok a) (hy : ys.mapM f = .ok b) : (xs ++ ys).mapM f = .ok (a ++ b) := by
  rw [List.mapM_append, hx, hy]
  rfl

/-- the first character decides the width of the label column -/
theorem readXrmac_eq (ec xc : ℝ → ℝ) {ls : List Line} {l : Line}
    (h : Labelled (l :: ls) ∨ Unlabelled (l :: ls)) (rest : Str) :
    ∃ skip, (∀ k ∈ l :: ls, k.label.length = skip) ∧
      readXrmac ec xc (l.body ++ rest) = (lines (l.body ++ rest)).mapM (readXrmacLine ec xc skip) := by
  rcases h with h | h
  · refine ⟨3, fun k hk => (h.1 k hk).1, ?_⟩
    obtain ⟨c, t, hc⟩ : ∃ c t, l.label = c :: t := by
      have := (h.1 l (by simp)).1
      cases hl : l.label with
      | nil => simp [hl] at this
      | cons c t => exact ⟨c, t, rfl⟩
    have hnd := h.2 l ls rfl c t hc
    have hb : ∃ t', l.body ++ rest = c :: t' := ⟨_, by simp [Line.body, hc]; rfl⟩
    obtain ⟨t', hb⟩ := hb
    rw [hb, readXrmac]
    rw [if_neg]
    rw [isDigit_of]
    exact hnd
  · refine ⟨0, fun k hk => by simp [h k hk], ?_⟩
    have hb : ∃ t', l.body ++ rest = digitChar l.energy.d0 :: t' :=
      ⟨_, by simp [Line.body, h l (by simp), Sci.render]; rfl⟩
    obtain ⟨t', hb⟩ := hb
    rw [hb, readXrmac]
    rw [if_pos (isDigit_digitChar _)]

theorem label_no_newline {ls : List Line} (h : Labelled ls ∨ Unlabelled ls) :
    ∀ l ∈ ls, '\n' ∉ l.label := by
  intro l hl
  rcases h with h | h
  · exact (h.1 l hl).2
  · simp [h l hl]

end Ries
