import Verif.Data.XrmacTables
import Verif.Model.XrmacModule
import Verif.Props.XrmacReader
import Verif.Props.Xrmac
import Mathlib.Data.Rat.Cast.Order

/-! # The shipped tables meet the conditions of the reader -/

namespace Ries

open Text

set_option maxRecDepth 100000

/-- the checks on a table: label column, positive numbers, sorted energies, range -/
def checkTable (Z : ℕ) : Bool :=
  let ls := xrmacLines Z
  ls.all (fun l => decide (0 < l.energy.value) && decide (0 < l.mu.value)) &&
    decide (ls.IsChain fun a b => a.energy.value ≤ b.energy.value) &&
    ((ls.all fun l => l.label.length == 3 && l.label.all (· != '\n')) &&
        ls.head?.any (fun l => l.label.head?.any fun c => !isDigit c) ||
      ls.all fun l => l.label == []) &&
    decide (ls.head?.map (fun l => l.energy.value) = some (1 / 1000)) &&
    decide (ls.getLast?.map (fun l => l.energy.value) = some 20)

theorem shipped_tables1 : ∀ Z ∈ List.range' 1 40, checkTable Z = true := by decide +kernel
theorem shipped_tables2 : ∀ Z ∈ List.range' 41 26, checkTable Z = true := by decide +kernel
theorem shipped_tables3 : ∀ Z ∈ List.range' 67 26, checkTable Z = true := by decide +kernel

theorem shipped_tables {Z : ℕ} (hZ : Z ∈ List.range' 1 92) : checkTable Z = true := by
  rw [List.mem_range'_1] at hZ
  by_cases h1 : Z < 41
  · exact shipped_tables1 Z (List.mem_range'_1.2 ⟨hZ.1, by omega⟩)
  · by_cases h2 : Z < 67
    · exact shipped_tables2 Z (List.mem_range'_1.2 ⟨by omega, by omega⟩)
    · exact shipped_tables3 Z (List.mem_range'_1.2 ⟨by omega, by omega⟩)

/-- the facts that are checked -/
structure GoodTable (ls : List Line) : Prop where
  pos : ∀ l ∈ ls, 0 < l.energy.value ∧ 0 < l.mu.value
  sorted : ls.Pairwise fun a b => a.energy.value ≤ b.energy.value
  format : Labelled ls ∨ Unlabelled ls
  first : ls.head?.map (fun l => l.energy.value) = some (1 / 1000)
  last : ls.getLast?.map (fun l => l.energy.value) = some 20

theorem GoodTable.ne_nil {ls : List Line} (h : GoodTable ls) : ls ≠ [] := by
  rintro rfl
  simpa using h.first

theorem shipped_good {Z : ℕ} (hZ : Z ∈ List.range' 1 92) : GoodTable (xrmacLines Z) := by
  have h := shipped_tables hZ
  generalize hls : xrmacLines Z = ls
  simp only [checkTable, hls, Bool.and_eq_true, decide_eq_true_eq, List.all_eq_true, Bool.or_eq_true,
    beq_iff_eq, bne_iff_ne] at h
  obtain ⟨⟨⟨⟨h1, h2⟩, h3⟩, h4⟩, h5⟩ := h
  refine ⟨h1, ?_, ?_, h4, h5⟩
  · have : IsTrans Line fun a b : Line => a.energy.value ≤ b.energy.value :=
      ⟨fun a b c => le_trans⟩
    exact List.isChain_iff_pairwise.1 h2
  · refine h3.imp (fun h => ⟨fun l hl => ⟨(h.1 l hl).1, fun hc => (h.1 l hl).2 _ hc rfl⟩, ?_⟩)
      (fun h l hl => h l hl)
    intro l rest he c t hc hd
    have := h.2
    rw [he] at this
    simp only [List.head?_cons, Option.any_some, hc] at this
    rw [isDigit_of.2 hd] at this
    simp at this

/-- the rows used for the interpolation -/
noncomputable def tableOf (Z : ℕ) : Table :=
  (xrmacLines Z).map fun l => ((l.energy.value : ℝ), (l.mu.value : ℝ))

theorem read_shipped {Z : ℕ} (hZ : Z ∈ List.range' 1 92) (xc : ℝ → ℝ) :
    ∃ rows, readXrmac id xc (xrmacText Z) = .ok rows ∧
      toTable rows = (tableOf Z).map fun r => (r.1, xc r.2) := by
  have hg := shipped_good hZ
  have ht : ∀ ls : List Line, toTable (ls.map (Line.row id xc)) =
      (ls.map fun l => ((l.energy.value : ℝ), (l.mu.value : ℝ))).map fun r => (r.1, xc r.2) := by
    intro ls
    simp [toTable, Line.row]
  unfold xrmacText tableOf
  split_ifs with h82
  · obtain ⟨ls, last, hl⟩ : ∃ ls last, xrmacLines Z = ls ++ [last] := by
      rcases List.eq_nil_or_concat (xrmacLines Z) with h | ⟨ls, last, h⟩
      · exact absurd h hg.ne_nil
      · exact ⟨ls, last, by simpa using h⟩
    have hf := hg.format
    rw [hl] at hf ⊢
    obtain ⟨rows, h1, h2⟩ := C53_table_partial id xc hf
    refine ⟨rows, ?_, by rw [h2, ht]⟩
    simpa using h1
  · exact ⟨_, C52_round_trip id xc hg.ne_nil hg.format, ht _⟩

theorem tableOf_pos {Z : ℕ} (hZ : Z ∈ List.range' 1 92) : PosTable (tableOf Z) := by
  have hg := shipped_good hZ
  refine ⟨by simpa [tableOf] using hg.ne_nil, fun r hr => ?_⟩
  obtain ⟨l, hl, rfl⟩ := List.mem_map.1 hr
  exact ⟨Rat.cast_pos.2 (hg.pos l hl).1, Rat.cast_pos.2 (hg.pos l hl).2⟩

theorem tableOf_sorted {Z : ℕ} (hZ : Z ∈ List.range' 1 92) : SortedTable (tableOf Z) := by
  have hg := shipped_good hZ
  unfold SortedTable tableOf
  rw [List.pairwise_map]
  exact hg.sorted.imp fun h => Rat.cast_le.2 h

/-- a positive table has a positive value at every nonnegative energy -/
theorem value_pos {t : Table} (ht : PosTable t) {E : ℝ} (hE : 0 ≤ E) : ∃ v, HasValue t E v ∧ 0 < v := by
  obtain ⟨lo, hi, hlo, hb⟩ : ∃ lo hi : ℝ, 0 < lo ∧ ∀ r ∈ t, lo ≤ r.2 ∧ r.2 ≤ hi := by
    have ht := ht.2
    clear E hE
    induction t with
    | nil => exact ⟨1, 1, one_pos, by simp⟩
    | cons r t ih =>
      by_cases hne : t = []
      · subst hne
        exact ⟨r.2, r.2, (ht r (by simp)).2, by simp⟩
      · obtain ⟨lo, hi, h1, h2⟩ := ih ⟨hne, fun q hq => ht q (by simp [hq])⟩
          fun q hq => ht q (by simp [hq])
        refine ⟨min lo r.2, max hi r.2, lt_min h1 (ht r (by simp)).2, fun q hq => ?_⟩
        rcases List.mem_cons.1 hq with rfl | hq
        · exact ⟨min_le_right _ _, le_max_right _ _⟩
        · exact ⟨(min_le_left _ _).trans (h2 q hq).1, (h2 q hq).2.trans (le_max_left _ _)⟩
  obtain ⟨v, hv, -, -, hp⟩ := C49_positive ht hE hlo hb
  exact ⟨v, hv, hp⟩

/-- the values of a table in both units -/
theorem both_units {t : Table} (ht : PosTable t) {mu : ℝ} (hmu : 0 < mu) {q : ℚ} (hq : 0 ≤ q)
    {E : ℝ} (hE : 0 ≤ E) : ∃ v, 0 < v ∧ xrmacCall t E = .ok (.fin v) ∧
      xrmacCall (t.map fun r => (r.1, r.2 * fm2PerAtom mu q)) E = .ok (.fin (1e29 * q * mu * v)) := by
  have hm : (0 : ℝ) ≤ q := Rat.cast_nonneg.2 hq
  obtain ⟨v, hv, hp⟩ := value_pos ht hE
  have hf : fm2PerAtom mu q = 1e29 * q * mu := by
    unfold fm2PerAtom
    ring
  obtain ⟨v', hv', hs⟩ := C51_value_units ht (f := fm2PerAtom mu q)
    (by unfold fm2PerAtom; positivity) hE
  rw [HasValue, hv] at hv'
  obtain rfl : v = v' := Fl.fin.inj (Except.ok.inj hv')
  refine ⟨v, hp, hv, ?_⟩
  rw [← hf, ← hs]
  simp only [scaleValues, mul_comm]

end Ries
