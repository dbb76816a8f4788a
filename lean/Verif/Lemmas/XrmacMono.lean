import Verif.Lemmas.XrmacCont

/-! # Tables with decreasing values: the interpolation is strictly decreasing -/

namespace Ries

/-- the interpolation is not above the value of a node to the left, if the values decrease up to there -/
theorem interpR_le {y : ℝ} (a : ℝ × ℝ) (s : List (ℝ × ℝ))
    (hc : (a :: s).IsChain fun p q => (y ≤ p.1 ∧ y < q.1) ∨ (p.1 < q.1 ∧ q.2 < p.2)) (ha : a.1 ≤ y) :
    interpR (a :: s) y ≤ a.2 := by
  induction s generalizing a with
  | nil => exact le_rfl
  | cons b s ih =>
    obtain ⟨h, hc⟩ := List.isChain_cons_cons.1 hc
    rw [interpR]
    split
    · rename_i hb
      rcases h with h | h
      · exact absurd h.2 (not_lt.2 hb)
      · exact (ih b hc hb).trans h.2.le
    · rename_i hb
      rcases h with h | h
      · rw [ramp_left h.1]
      · have h1 : (b.2 - a.2) / (b.1 - a.1) ≤ 0 :=
          div_nonpos_of_nonpos_of_nonneg (by linarith [h.2]) (by linarith [h.1])
        rw [ramp, max_eq_left ha]
        nlinarith

/-- between two abscissae where the values of the nodes decrease, the interpolation is strictly decreasing -/
theorem interpR_strict {x y : ℝ} (hxy : x < y) (a : ℝ × ℝ) (s : List (ℝ × ℝ))
    (hc : (a :: s).IsChain fun p q => q.1 ≤ x ∨ (y ≤ p.1 ∧ y < q.1) ∨ (p.1 < q.1 ∧ q.2 < p.2))
    (hs : (a :: s).Pairwise fun p q => p.1 ≤ q.1) (ha : a.1 ≤ x) (hl : ∃ p ∈ a :: s, y ≤ p.1) :
    interpR (a :: s) y < interpR (a :: s) x := by
  induction s generalizing a with
  | nil =>
    obtain ⟨p, hp, hl⟩ := hl
    obtain rfl : p = a := by simpa using hp
    linarith
  | cons b s ih =>
    obtain ⟨h, hc'⟩ := List.isChain_cons_cons.1 hc
    obtain ⟨hab, hs'⟩ := List.pairwise_cons.1 hs
    rw [interpR, interpR]
    by_cases hb : b.1 ≤ x
    · rw [if_pos hb, if_pos (hb.trans hxy.le)]
      refine ih b hc' hs' hb ?_
      obtain ⟨p, hp, hl⟩ := hl
      rcases List.mem_cons.1 hp with rfl | hp
      · linarith
      · exact ⟨p, hp, hl⟩
    · rw [if_neg hb]
      push Not at hb
      have h : a.1 < b.1 ∧ b.2 < a.2 := by
        rcases h with h | h | h
        · linarith
        · linarith [h.1]
        · exact h
      have h1 : (b.2 - a.2) / (b.1 - a.1) < 0 := div_neg_of_neg_of_pos (by linarith [h.2]) (by linarith [h.1])
      by_cases hy : b.1 ≤ y
      · rw [if_pos hy]
        have h2 : interpR (b :: s) y ≤ b.2 := by
          refine interpR_le b s ?_ hy
          have hge : ∀ p ∈ b :: s, x < p.1 := by
            intro p hp
            rcases List.mem_cons.1 hp with rfl | hp
            · exact hb
            · exact hb.trans_le ((List.pairwise_cons.1 hs').1 p hp)
          refine List.IsChain.imp_of_mem_imp ?_ hc'
          intro p q _ hq h
          rcases h with h | h
          · exact absurd h (not_le.2 (hge q hq))
          · exact h
        have h3 : b.2 < ramp a b x := by
          rw [← ramp_right h.1, ramp, ramp, max_eq_left ha, max_eq_left h.1.le]
          nlinarith
        linarith
      · rw [if_neg hy, ramp, ramp, max_eq_left ha, max_eq_left (ha.trans hxy.le)]
        nlinarith

end Ries
