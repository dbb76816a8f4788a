import Verif.Model.Grid

/-! # Lemmas on `np.linspace` -/

namespace Ries

theorem linspace_nat (a b : ℝ) (m : ℕ) :
    linspace (.fin a) (.fin b) ((m : ℤ) + 2) =
      .ok ((List.range (m + 2)).map fun i : ℕ => Fl.fin (a + i * ((b - a) / (m + 1)))) := by
  unfold linspace
  have h0 : ¬ ((m : ℤ) + 2 < 0) := by omega
  have h1 : ((m : ℤ) + 2).toNat = m + 2 := by omega
  simp only [h0, if_false, h1, Except.ok.injEq]
  rw [List.range_succ (n := m + 1), List.map_append]
  have hm : (m : ℝ) + 1 ≠ 0 := by positivity
  congr 1
  · apply List.map_congr_left
    intro i _
    simp only [Fl.add, Fl.smul, Fl.fin.injEq]
    push_cast
    have : (m : ℝ) + 2 - 1 = m + 1 := by ring
    rw [this]
    field_simp
    ring
  · simp only [List.map_cons, List.map_nil, List.cons.injEq, and_true, Fl.fin.injEq]
    push_cast
    field_simp
    ring

theorem linspace_one (a b : ℝ) : linspace (.fin a) (.fin b) 1 = .ok [.fin a] := by
  simp [linspace, Fl.add, Fl.smul]

theorem linspace_zero (a b : Fl) : linspace a b 0 = .ok [] := by
  simp [linspace]

theorem linspace_neg (a b : Fl) {n : ℤ} (h : n < 0) : linspace a b n = .error .valueError := by
  simp [linspace, h]

/-- `linspace` returns `n` points whatever the ends are. -/
theorem linspace_length {a b : Fl} {n : ℤ} {g : List Fl} (h : linspace a b n = .ok g) :
    0 ≤ n ∧ g.length = n.toNat := by
  unfold linspace at h
  by_cases hn : n < 0
  · simp [hn] at h
  · simp only [hn, if_false] at h
    refine ⟨by omega, ?_⟩
    generalize n.toNat = k at h ⊢
    match k with
    | 0 => simp only [Except.ok.injEq] at h; subst h; rfl
    | 1 => simp only [Except.ok.injEq] at h; subst h; rfl
    | k + 2 => simp only [Except.ok.injEq] at h; subst h; simp

end Ries
