import Verif.Lemmas.ElementsReader

/-! # Lemmas on the density reader and on element masses -/

namespace Ries

open Text

theorem isAlpha_ne {c : Char} (h : c.isAlpha = true) : c ≠ ' ' ∧ c ≠ '#' ∧ c ≠ '\n' := by
  refine ⟨?_, ?_, ?_⟩ <;> rintro rfl <;> exact absurd h (by decide)

/-- a symbol occurs in the padded first two characters iff it occurs in the symbol of the line -/
theorem infix_padded {X Y : Str} (hX : IsSymbol X) (hne : X ≠ []) (n : ℕ) :
    X <:+: Y ++ List.replicate n ' ' ↔ X <:+: Y := by
  have hb : ' ' ∉ X := fun h => (isAlpha_ne (hX.2 _ h)).1 rfl
  induction n with
  | zero => simp
  | succ n ih =>
    rw [List.replicate_succ', ← List.append_assoc]
    constructor
    · intro h
      exact ih.1 (infix_concat hne hb h)
    · intro h
      exact (ih.2 h).trans ⟨[], [' '], by simp⟩

theorem symbol_ne_nil {X : Str} (hX : IsSymbol X) : X ≠ [] := by
  rintro rfl
  rcases hX.1 with h | h <;> simp at h

/-- the first two characters of a line are its padded symbol -/
theorem take_two {l : DensLine} (hl : IsSymbol l.X) (nl : Str) :
    (l.body ++ nl).take 2 = l.X ++ List.replicate (2 - l.X.length) ' ' ∧
    (l.body ++ nl).drop 2 = List.replicate l.pad1 ' ' ++ l.rho.render ++
      (List.replicate l.pad2 ' ' ++ nl) := by
  have h2 : (l.X ++ List.replicate (2 - l.X.length) ' ').length = 2 := by
    rcases hl.1 with h | h <;> simp [h]
  have e : l.body ++ nl = (l.X ++ List.replicate (2 - l.X.length) ' ') ++
      (List.replicate l.pad1 ' ' ++ l.rho.render ++ (List.replicate l.pad2 ' ' ++ nl)) := by
    simp only [DensLine.body, List.append_assoc]
  rw [e]
  generalize l.X ++ List.replicate (2 - l.X.length) ' ' = s at h2
  constructor
  · rw [← h2, List.take_left]
  · rw [← h2, List.drop_left]

theorem allWs_blanks (n : ℕ) {nl : Str} (hnl : nl = [] ∨ nl = ['\n']) :
    AllWs (List.replicate n ' ' ++ nl) := by
  intro c hc
  rcases List.mem_append.1 hc with hc | hc
  · rw [List.eq_of_mem_replicate hc]; decide
  · rcases hnl with rfl | rfl
    · simp at hc
    · rw [List.mem_singleton.1 hc]; decide

theorem densityLoop_line {α : Type} (conv : ℚ → α) {X : Str} (hX : IsSymbol X) {l : DensLine}
    (hl : IsSymbol l.X) (hv : l.rho.Valid) {nl : Str} (hnl : nl = [] ∨ nl = ['\n'])
    (rest : List Str) :
    (X <:+: l.X → densityLoop conv X ((l.body ++ nl) :: rest) = .ok (some (conv l.rho.value))) ∧
    (¬ X <:+: l.X → densityLoop conv X ((l.body ++ nl) :: rest) = densityLoop conv X rest) := by
  obtain ⟨h1, h2⟩ := take_two hl nl
  have hc : contains X ((l.body ++ nl).take 2) = true ↔ X <:+: l.X := by
    rw [h1, contains_iff, infix_padded hX (symbol_ne_nil hX)]
  constructor
  · intro h
    rw [densityLoop, if_pos (hc.2 h), h2, Dec.parse hv _ (allWs_blanks _ hnl)]
    · rfl
    · intro c hc
      rw [List.eq_of_mem_replicate hc]; decide
  · intro h
    rw [densityLoop, if_neg (fun h' => h (hc.1 h'))]

theorem densityLoop_comment {α : Type} (conv : ℚ → α) {X : Str} (hX : IsSymbol X) {l : Str}
    (hl : IsComment l) (rest : List Str) :
    densityLoop conv X ((l ++ ['\n']) :: rest) = densityLoop conv X rest := by
  have h : ¬ contains X ((l ++ ['\n']).take 2) = true := by
    rw [contains_iff]
    intro h
    obtain ⟨c, t, rfl⟩ := List.exists_cons_of_ne_nil (symbol_ne_nil hX)
    have hc := isAlpha_ne (hX.2 c (by simp))
    have hm : c ∈ (l ++ ['\n']).take 2 := h.subset (by simp)
    rcases hl.2 with rfl | ⟨t', rfl⟩
    · simp [hc] at hm
    · simp [hc] at hm
  rw [densityLoop, if_neg h]

theorem densityLoop_comments {α : Type} (conv : ℚ → α) {X : Str} (hX : IsSymbol X) {ls : List Str}
    (hl : ∀ l ∈ ls, IsComment l) (rest : List Str) :
    densityLoop conv X (ls.map (· ++ ['\n']) ++ rest) = densityLoop conv X rest := by
  induction ls with
  | nil => rfl
  | cons l ls ih =>
    rw [List.map_cons, List.cons_append, densityLoop_comment conv hX (hl l (by simp)),
      ih fun k hk => hl k (by simp [hk])]

theorem body_no_newline {l : DensLine} (hl : IsSymbol l.X) : '\n' ∉ l.body := by
  intro h
  simp only [DensLine.body, List.mem_append] at h
  rcases h with (((h | h) | h) | h) | h
  · exact (isAlpha_ne (hl.2 _ h)).2.2 rfl
  · exact absurd (List.eq_of_mem_replicate h) (by decide)
  · exact absurd (List.eq_of_mem_replicate h) (by decide)
  · exact (l.rho.render_safe _ h).2.1 rfl
  · exact absurd (List.eq_of_mem_replicate h) (by decide)

theorem body_ne_nil {l : DensLine} (hl : IsSymbol l.X) : l.body ≠ [] := by
  have := symbol_ne_nil hl
  simp [DensLine.body, this]

theorem readDensity_lines {f : DensFile} (hf : f.Valid) : lines f.render =
    f.comments.map (· ++ ['\n']) ++ (f.entries.map (fun l => l.body ++ ['\n']) ++
      f.last.toList.map fun l => l.body ++ []) := by
  have h := lines_flatMap (fun l => l) (f.comments ++ f.entries.map DensLine.body) (fun l hl => by
    rcases List.mem_append.1 hl with hl | hl
    · exact (hf.1 l hl).1
    · obtain ⟨k, hk, rfl⟩ := List.mem_map.1 hl
      exact body_no_newline (hf.2 k (by simp [DensFile.all, hk])).1)
    (f.last.toList.flatMap DensLine.body)
  rw [DensFile.render, h, List.map_append, List.map_map, List.append_assoc]
  congr 2
  cases hl : f.last with
  | none => rfl
  | some l =>
    have hs := (hf.2 l (by simp [DensFile.all, hl])).1
    simp only [Option.toList, List.map_cons, List.map_nil, List.append_nil, List.flatMap_cons,
      List.flatMap_nil]
    exact lines_end (body_no_newline hs) (body_ne_nil hs)

/-- lines, each with its line end -/
theorem densityLoop_skip {α : Type} (conv : ℚ → α) {X : Str} (hX : IsSymbol X) {ls : List DensLine}
    (hl : ∀ l ∈ ls, IsSymbol l.X ∧ l.rho.Valid) (hn : ∀ l ∈ ls, ¬ X <:+: l.X) {nl : Str}
    (hnl : nl = [] ∨ nl = ['\n']) (rest : List Str) :
    densityLoop conv X (ls.map (fun l => l.body ++ nl) ++ rest) = densityLoop conv X rest := by
  induction ls with
  | nil => rfl
  | cons l ls ih =>
    rw [List.map_cons, List.cons_append,
      (densityLoop_line conv hX (hl l (by simp)).1 (hl l (by simp)).2 hnl _).2 (hn l (by simp)),
      ih (fun k hk => hl k (by simp [hk])) fun k hk => hn k (by simp [hk])]

/-- the reader returns the density of the first line whose symbol contains the requested one -/
theorem readDensity_first {α : Type} (conv : ℚ → α) {X : Str} (hX : IsSymbol X) {f : DensFile}
    (hf : f.Valid) {pre post : List DensLine} {l : DensLine} (h : f.all = pre ++ l :: post)
    (hl : X <:+: l.X) (hn : ∀ k ∈ pre, ¬ X <:+: k.X) :
    readDensity conv f.render X = .ok (some (conv l.rho.value)) := by
  rw [readDensity, readDensity_lines hf, densityLoop_comments conv hX hf.1]
  have hall := hf.2
  rw [h] at hall
  have hlv := hall l (by simp)
  have hprev : ∀ k ∈ pre, IsSymbol k.X ∧ k.rho.Valid := fun k hk => hall k (by simp [hk])
  rw [DensFile.all, List.append_eq_append_iff] at h
  rcases h with ⟨a, h1, h2⟩ | ⟨a, h1, h2⟩
  · -- the line is the last one
    have hlast : f.last.toList = [l] ∧ a = [] := by
      cases hfl : f.last with
      | none => rw [hfl] at h2; simp at h2
      | some m =>
        rw [hfl] at h2
        cases a with
        | nil =>
          simp only [Option.toList, List.nil_append, List.cons.injEq] at h2
          exact ⟨by simp [h2.1], rfl⟩
        | cons b a =>
          simp at h2
    obtain ⟨hlast, rfl⟩ := hlast
    rw [List.append_nil] at h1
    rw [hlast, ← h1]
    rw [densityLoop_skip conv hX hprev hn (.inr rfl)]
    exact (densityLoop_line conv hX hlv.1 hlv.2 (.inl rfl) _).1 hl
  · cases a with
    | nil =>
      rw [List.append_nil] at h1
      rw [List.nil_append] at h2
      rw [h1, ← h2, densityLoop_skip conv hX hprev hn (.inr rfl)]
      exact (densityLoop_line conv hX hlv.1 hlv.2 (.inl rfl) _).1 hl
    | cons b a =>
      obtain ⟨rfl, -⟩ := List.cons.inj h2
      rw [h1, List.map_append, List.append_assoc, densityLoop_skip conv hX hprev hn (.inr rfl)]
      exact (densityLoop_line conv hX hlv.1 hlv.2 (.inr rfl) _).1 hl

/-- no line, no density -/
theorem readDensity_none {α : Type} (conv : ℚ → α) {X : Str} (hX : IsSymbol X) {f : DensFile}
    (hf : f.Valid) (hn : ∀ k ∈ f.all, ¬ X <:+: k.X) :
    readDensity conv f.render X = .ok none := by
  rw [readDensity, readDensity_lines hf, densityLoop_comments conv hX hf.1,
    densityLoop_skip conv hX (fun k hk => hf.2 k (by simp [DensFile.all, hk]))
      (fun k hk => hn k (by simp [DensFile.all, hk])) (.inr rfl)]
  have := densityLoop_skip conv hX (ls := f.last.toList)
    (fun k hk => hf.2 k (by rw [DensFile.all, List.mem_append]; exact .inr hk))
    (fun k hk => hn k (by rw [DensFile.all, List.mem_append]; exact .inr hk)) (.inl rfl) []
  rw [List.append_nil] at this
  rw [this]
  rfl

/-- a symbol of two letters occurs in another symbol only if they are equal -/
theorem infix_two {X Y : Str} (hX : X.length = 2) (hY : IsSymbol Y) (h : X <:+: Y) : X = Y := by
  refine h.sublist.eq_of_length_le ?_
  rcases hY.1 with h1 | h1 <;> omega

end Ries
