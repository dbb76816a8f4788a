import Verif.Model.NonresonantLeaf
import Verif.Props.KleinNishina
import Verif.Lemmas.CrossSection

/-!
# C85: energies at which the total Compton cross section can be evaluated
-/

open Real

namespace Ries

/-- If a weighted sum can be evaluated, so can each of its constituents. -/
theorem call_constituents : ∀ (rs ss : List Obj) (acc : Obj) (E : ℝ) (v : Obj), Obj.callLoop rs ss acc E = .ok v →
    ∀ o ∈ rs, ∃ w, o.call E = .ok w
  | [], _, _, _, _, _, o, ho => by cases ho
  | r :: rs, [], acc, E, v, h, o, ho => by simp [Obj.callLoop] at h
  | r :: rs, s :: ss, acc, E, v, h, o, ho => by
    unfold Obj.callLoop at h
    simp only [bind, Except.bind] at h
    cases h1 : r.call E with
    | error e => rw [h1] at h; cases h
    | ok w =>
      rw [h1] at h
      simp only at h
      cases h2 : Obj.mul s w with
      | error e => rw [h2] at h; cases h
      | ok p =>
        rw [h2] at h
        simp only at h
        cases h3 : Obj.add acc p with
        | error e => rw [h3] at h; cases h
        | ok a =>
          rw [h3] at h
          simp only at h
          rcases List.mem_cons.1 ho with rfl | ho
          · exact ⟨w, h1⟩
          · exact call_constituents rs ss a E v h o ho

namespace KN

/-- A Compton cross section exists for every mass that is not zero. -/
theorem C85_construction (Z mc2 : ℝ) : (∃ s, mk? Z mc2 = .ok s) ↔ mc2 ≠ 0 := by
  unfold mk?
  by_cases h : mc2 = 0
  · simp [h]
  · simp [h]

/-- C85 is false of the code: at energy zero, evaluation on a float raises `ZeroDivisionError`, an element of an array
becomes nan, although the total cross section has a limit there (the Thomson cross section). -/
theorem C85_refuted (k : PhysConst) (s : KN) (hZ : 0 < s.Z) (hm : 0 < s.mc2) :
    s.totalFl k 0 = .error .zeroDivision ∧ s.totalElem k 0 = .nan ∧
      Filter.Tendsto (s.total k) (nhdsWithin 0 (Set.Ioi 0)) (nhds (8 * π / 3 * (s.Z * (k.alpha * k.hbarc / s.mc2) ^ 2))) := by
  refine ⟨?_, by simp [totalElem], (C44_total k s hZ hm).2.2.2⟩
  unfold totalFl
  rw [if_neg hm.ne']
  simp

/-- C85: consequently no sum that has a Compton cross section among its constituents can be evaluated at energy zero. -/
theorem C85_sum (k : PhysConst) (s : KN) (rs ss : List Obj) (h : .leaf (s.toLeaf k) ∈ rs) (v : Obj) :
    (Obj.wsum rs ss).call 0 ≠ .ok v := by
  intro hv
  unfold Obj.call at hv
  obtain ⟨w, hw⟩ := call_constituents rs ss (.num 0) 0 v hv _ h
  have : s.totalFl k 0 = .error .zeroDivision := by
    unfold totalFl
    split_ifs <;> simp
  simp [Obj.call, toLeaf, this, bind, Except.bind, Except.map] at hw

/-- C85: where the Compton cross sections in a sum can be evaluated, the sum is the weighted sum of their values. -/
theorem C85_sum_value (k : PhysConst) (l : List (ℝ × KN × ℝ)) (E : ℝ) (h : ∀ t ∈ l, t.2.1.totalFl k E = .ok (.fin t.2.2)) :
    (Obj.wsum (l.map fun t => .leaf (t.2.1.toLeaf k)) (l.map fun t => .num t.1)).call E =
      .ok (.num (l.map fun t => t.1 * t.2.2).sum) := by
  have key : ∀ acc : ℝ, Obj.callLoop (l.map fun t => .leaf (t.2.1.toLeaf k)) (l.map fun t => .num t.1) (.num acc) E =
      .ok (.num (acc + (l.map fun t => t.1 * t.2.2).sum)) := by
    induction l with
    | nil => intro acc; simp [Obj.callLoop]
    | cons t l ih =>
      intro acc
      have ht := h t (by simp)
      simp only [List.map_cons, List.sum_cons]
      unfold Obj.callLoop
      simp only [Obj.call, toLeaf, ht, bind, Except.bind, Except.map, Obj.mul, Obj.add]
      have := ih (fun t' h' => h t' (by simp [h'])) (acc + t.1 * t.2.2)
      simp only [toLeaf, bind, Except.bind] at this
      rw [this, add_assoc]
  unfold Obj.call
  rw [key 0, zero_add]

/-- C85, the part that holds: for a positive mass, evaluation on a float and on an element of an array succeeds with the same number
exactly for energies above `-mc²/2` that are not zero; in particular at all positive energies. -/
theorem C85_partial (k : PhysConst) (s : KN) (hm : 0 < s.mc2) (E : ℝ) :
    ((∃ v, s.totalFl k E = .ok (.fin v)) ↔ -s.mc2 / 2 < E ∧ E ≠ 0) ∧
    ∀ v, s.totalFl k E = .ok (.fin v) ↔ s.totalElem k E = .fin v := by
  have hx0 : E / s.mc2 = 0 ↔ E = 0 := by rw [div_eq_zero_iff]; simp [hm.ne']
  have hx1 : 0 < 1 + 2 * (E / s.mc2) ↔ -s.mc2 / 2 < E := by
    have : 1 + 2 * (E / s.mc2) = (s.mc2 + 2 * E) / s.mc2 := by field_simp
    rw [this, div_pos_iff_of_pos_right hm]
    constructor <;> intro h <;> linarith
  unfold totalFl totalElem
  simp only [if_neg hm.ne', hx0]
  by_cases hE : E = 0
  · simp [hE]
  · rw [if_neg hE, if_neg hE]
    rcases lt_trichotomy (1 + 2 * (E / s.mc2)) 0 with h | h | h
    · have h' : ¬ -s.mc2 / 2 < E := by rw [← hx1]; exact not_lt.2 h.le
      rw [if_neg (pow_ne_zero 2 h.ne), if_pos h, if_pos h.le]
      simp [h']
    · have h' : ¬ -s.mc2 / 2 < E := by rw [← hx1]; exact not_lt.2 h.le
      rw [if_pos (by rw [h]; ring), if_pos h.le]
      simp [h']
    · rw [if_neg (pow_ne_zero 2 h.ne'), if_neg (not_lt.2 h.le), if_neg (not_le.2 h)]
      simp [hx1.1 h, hE]

example : (-(0.511 : ℝ)) / 2 < 1 ∧ (1 : ℝ) ≠ 0 := by norm_num

end KN
end Ries
