import Verif.Lemmas.XrmacReader

/-!
# C52, C53: reading the tables
-/

namespace Ries

open Text

/-- C52: a file in the documented format, with or without label column and with any number of lines,
is read as exactly the numbers written in it (converted by the two conversion functions). -/
theorem C52_round_trip (ec xc : ℝ → ℝ) {ls : List Line} (hne : ls ≠ [])
    (h : Labelled ls ∨ Unlabelled ls) :
    readXrmac ec xc (ls.flatMap Line.render) = .ok (ls.map (Line.row ec xc)) := by
  obtain ⟨l, ls, rfl⟩ := List.exists_cons_of_ne_nil hne
  have hnl := label_no_newline h
  have e : (l :: ls).flatMap Line.render = l.body ++ ([' ', '\n'] ++ ls.flatMap Line.render) := by
    simp [Line.render]
  obtain ⟨skip, hskip, hread⟩ := readXrmac_eq ec xc h ([' ', '\n'] ++ ls.flatMap Line.render)
  rw [e, hread, ← e]
  have hl := lines_flatMap (fun k : Line => k.body ++ [' ']) (l :: ls) (fun k hk => by
    have := k.body_no_newline (hnl k hk)
    simp [this]) []
  have hr : (fun k : Line => k.body ++ [' '] ++ ['\n']) = Line.render := by
    funext k
    simp [Line.render]
  rw [hr, List.append_nil] at hl
  have h0 : lines [] = [] := rfl
  rw [hl, h0, List.append_nil, List.mapM_map]
  refine mapM_ok fun k hk => ?_
  rw [Function.comp, ← hskip k hk]
  exact k.read ec xc

/-- the number 1.5E-03 -/
def exSci : Sci := ⟨1, [5], true, 0, 3⟩

example : exSci.value = 3 / 2000 := by
  norm_num [exSci, Sci.value, Sci.mantissa, Sci.exponent, Nat.ofDigits]

example : exSci.render = "1.5E-03".toList := by decide

/-- two lines with labels -/
def exLines : List Line :=
  [⟨"   ".toList, exSci, exSci, exSci⟩, ⟨"M5 ".toList, exSci, exSci, exSci⟩]

example : readXrmac id id (exLines.flatMap Line.render) = .ok (exLines.map (Line.row id id)) := by
  refine C52_round_trip id id (by simp [exLines]) (.inl ⟨?_, ?_⟩)
  · intro l hl
    simp only [exLines, List.mem_cons, List.not_mem_nil, or_false] at hl
    rcases hl with rfl | rfl <;> decide
  · intro l rest h c t hc
    obtain ⟨rfl, -⟩ := List.cons.inj h
    have : c = ' ' := by
      have h2 := (List.cons.inj hc).1
      exact h2.symm
    subst this
    decide

/-! ## C53 -/

/-- C53, proved part: in a file whose last line has no newline, all lines but the last one, and the
first two numbers of the last line, are read correctly; so the table used for interpolation is
complete.  Of the third number the last exponent digit is lost.
Missing for the full statement: the third number, for which it is false (`C53_refuted`). -/
theorem C53_partial (ec xc : ℝ → ℝ) {ls : List Line} {last : Line}
    (h : Labelled (ls ++ [last]) ∨ Unlabelled (ls ++ [last])) :
    readXrmac ec xc (ls.flatMap Line.render ++ (last.body ++ [' '])) =
      .ok (ls.map (Line.row ec xc) ++ [(ec (last.energy.value : ℝ), xc (last.mu.value : ℝ),
        xc ((last.muEn.mantissa * (if last.muEn.eneg then (10 ^ last.muEn.e1.val)⁻¹
          else 10 ^ last.muEn.e1.val) : ℚ) : ℝ))]) := by
  have hnl := label_no_newline h
  have hb : last.body ≠ [] := by simp [Line.body, Sci.render]
  have hlast : lines (last.body ++ [' ']) = [last.body ++ [' ']] := by
    refine lines_end ?_ (by simp)
    have := last.body_no_newline (hnl last (by simp))
    simp [this]
  have hl := lines_flatMap (fun k : Line => k.body ++ [' ']) ls (fun k hk => by
    have := k.body_no_newline (hnl k (by simp [hk]))
    simp [this]) (last.body ++ [' '])
  have hr : (fun k : Line => k.body ++ [' '] ++ ['\n']) = Line.render := by
    funext k
    simp [Line.render]
  rw [hr, hlast] at hl
  obtain ⟨skip, hskip, hread⟩ : ∃ skip, (∀ k ∈ ls ++ [last], k.label.length = skip) ∧
      readXrmac ec xc (ls.flatMap Line.render ++ (last.body ++ [' '])) =
        (lines (ls.flatMap Line.render ++ (last.body ++ [' ']))).mapM (readXrmacLine ec xc skip) := by
    cases ls with
    | nil =>
      obtain ⟨skip, h1, h2⟩ := readXrmac_eq ec xc (l := last) (ls := []) (by simpa using h) [' ']
      exact ⟨skip, by simpa using h1, by simpa using h2⟩
    | cons l ls =>
      obtain ⟨skip, h1, h2⟩ := readXrmac_eq ec xc (l := l) (ls := ls ++ [last]) (by simpa using h)
        ([' ', '\n'] ++ (ls.flatMap Line.render ++ (last.body ++ [' '])))
      refine ⟨skip, by simpa using h1, ?_⟩
      have e : (l :: ls).flatMap Line.render ++ (last.body ++ [' ']) =
          l.body ++ ([' ', '\n'] ++ (ls.flatMap Line.render ++ (last.body ++ [' ']))) := by
        simp [Line.render]
      rw [e, h2]
  rw [hread, hl]
  refine mapM_append_ok ?_ ?_
  · rw [List.mapM_map]
    refine mapM_ok fun k hk => ?_
    rw [Function.comp, ← hskip k (by simp [hk])]
    exact k.read ec xc
  · rw [← hskip last (by simp)]
    simp [last.read_truncated ec xc, bind, Except.bind, pure, Except.pure]

/-- the interpolation table of such a file is complete -/
theorem C53_table_partial (ec xc : ℝ → ℝ) {ls : List Line} {last : Line}
    (h : Labelled (ls ++ [last]) ∨ Unlabelled (ls ++ [last])) :
    ∃ rows, readXrmac ec xc (ls.flatMap Line.render ++ (last.body ++ [' '])) = .ok rows ∧
      toTable rows = toTable ((ls ++ [last]).map (Line.row ec xc)) := by
  refine ⟨_, C53_partial ec xc h, ?_⟩
  simp [toTable, Line.row]

/-- the last line of `ries/nonresonant/nist_xrmac/82.txt` -/
def lastLine82 : Line :=
  ⟨"   ".toList, ⟨2, [0, 0, 0, 0, 0], false, 0, 1⟩, ⟨6, [2, 0, 6], true, 0, 2⟩,
    ⟨3, [5, 9, 5], true, 0, 2⟩⟩

example : lastLine82.body ++ [' '] = "   2.00000E+01  6.206E-02  3.595E-02 ".toList := by decide

theorem lastLine82_labelled : Labelled [lastLine82] := by
  refine ⟨?_, ?_⟩
  · intro l hl
    rw [List.mem_singleton.1 hl]
    decide
  · intro l rest h c t hc
    obtain ⟨rfl, -⟩ := List.cons.inj h
    have : c = ' ' := ((List.cons.inj hc).1).symm
    subst this
    decide

/-- C53 is false of the code: `line[skip:-2]` removes two characters also from a last line without
newline.  For the shipped 82.txt the mass-energy absorption coefficient 0.03595 is read as 3.595. -/
theorem C53_refuted :
    ¬ ∀ (ls : List Line) (last : Line), (Labelled (ls ++ [last]) ∨ Unlabelled (ls ++ [last])) →
      readXrmac id id (ls.flatMap Line.render ++ (last.body ++ [' '])) =
        .ok ((ls ++ [last]).map (Line.row id id)) := by
  intro hall
  have h1 := hall [] lastLine82 (.inl lastLine82_labelled)
  rw [C53_partial id id (.inl lastLine82_labelled)] at h1
  simp only [List.map_nil, List.nil_append, List.map_cons, Line.row, id, Except.ok.injEq,
    List.cons.injEq, and_true, Prod.mk.injEq, true_and] at h1
  have h2 := Rat.cast_injective h1
  norm_num [lastLine82, Sci.value, Sci.mantissa, Sci.exponent, Nat.ofDigits] at h2

/-- the one-line file of `lastLine82`, with newline -/
theorem read82 (xc : ℝ → ℝ) : readXrmac id xc ([lastLine82].flatMap Line.render) =
    .ok ([lastLine82].map (Line.row id xc)) :=
  C52_round_trip id xc (by simp) (.inl lastLine82_labelled)

end Ries
