import Verif.Model.DebyeNd
import Verif.Props.DebyeArray
import Verif.Props.NdArrays

/-! # Property C99, arrays of any shape -/

namespace Ries

open Nd

theorem mem_indices : ∀ {s i : List ℕ}, i ∈ indices s ↔ Valid s i
  | [], i => by
    simp only [indices, List.mem_singleton, Valid]
    constructor
    · rintro rfl; exact .nil
    · intro h; cases h; rfl
  | d :: s, i => by
    simp only [indices, List.mem_flatMap, List.mem_map, List.mem_range]
    constructor
    · rintro ⟨r, hr, k, hk, rfl⟩
      exact .cons hk (mem_indices.1 hr)
    · intro h
      cases h with
      | cons hk hr => exact ⟨_, mem_indices.2 hr, _, hk, rfl⟩

/-- stretching does not create entries, and loses none -/
theorem valid_surj {s T j : List ℕ} (h : Into s T) (h0 : 0 ∉ T) (hj : Valid s j) : ∃ i, Valid T i ∧ align s i = j := by
  induction s generalizing T j with
  | nil =>
    cases hj
    exact ⟨T.map fun _ => 0, by
      clear h
      induction T with
      | nil => exact .nil
      | cons d T ih => exact .cons (by have : d ≠ 0 := fun h => h0 (by simp [h]); show 0 < d; omega) (ih fun h => h0 (List.mem_cons_of_mem _ h)), by cases T <;> rfl⟩
  | cons a s ih =>
    cases T with
    | nil => exact absurd h (by simp [Into])
    | cons d T =>
      cases hj with
      | cons hk hr =>
        rename_i k r
        obtain ⟨h1, h2⟩ := h
        obtain ⟨i, hi, he⟩ := ih h2 (fun h => h0 (List.mem_cons_of_mem _ h)) hr
        have hd : d ≠ 0 := fun h => h0 (by simp [h])
        rcases h1 with rfl | rfl
        · refine ⟨0 :: i, .cons (by omega) hi, ?_⟩
          have : k = 0 := by omega
          simp [align, he, this]
        · refine ⟨k :: i, .cons hk hi, ?_⟩
          simp only [align, he]
          by_cases h1 : a = 1
          · rw [if_pos h1]; congr 1; omega
          · rw [if_neg h1]

theorem bshape_zero : ∀ {s t u : List ℕ}, bshape s t = some u → 0 ∉ s → 0 ∉ t → 0 ∉ u
  | [], t, u, h, _, h2 => by simp only [bshape, Option.some.injEq] at h; rwa [← h]
  | a :: s, [], u, h, h1, _ => by simp only [bshape, Option.some.injEq] at h; rwa [← h]
  | a :: s, b :: t, u, h, h1, h2 => by
    simp only [bshape] at h
    split at h
    · rename_i d v hd hv
      obtain rfl := Option.some.inj h
      rw [List.mem_cons] at h1 h2 ⊢
      push Not at h1 h2 ⊢
      refine ⟨?_, bshape_zero hv h1.2 h2.2⟩
      unfold bdim at hd
      split_ifs at hd <;> simp only [Option.some.injEq] at hd <;> omega
    · simp at h

/-- C99, arrays of any shape that are not empty: the shape follows the broadcasting rules (it is the smallest one into which both shapes can be
stretched), and each entry of the result is the effective temperature of the stretched entries; if an entry is zero the call raises
`ZeroDivisionError`, whatever the other entries; shapes that do not fit raise `ValueError`. Missing for the full statement: empty arrays,
which raise `ValueError`. -/
theorem C99_nd_partial (T TD : Nd) (h1 : 0 ∉ T.shape) (h2 : 0 ∉ TD.shape) :
    ((∃ S, Into T.shape S ∧ Into TD.shape S) →
      ((∀ i, Valid T.shape i → T.get i ≠ 0) → (∀ i, Valid TD.shape i → TD.get i ≠ 0) →
        ∃ v, debyeNd T TD = .ok v ∧ (∀ S, Into v.shape S ↔ Into T.shape S ∧ Into TD.shape S) ∧
          ∀ i, Valid v.shape i → debyeTemperature (T.at' i) (TD.at' i) = .ok (v.get i)) ∧
      ((∃ i, Valid T.shape i ∧ T.get i = 0) ∨ (∃ i, Valid TD.shape i ∧ TD.get i = 0) → debyeNd T TD = .error .zeroDivision)) ∧
    ((¬ ∃ S, Into T.shape S ∧ Into TD.shape S) → debyeNd T TD = .error .valueError) := by
  have hne : ¬ (0 ∈ T.shape ∨ 0 ∈ TD.shape) := by tauto
  refine ⟨?_, ?_⟩
  · rintro ⟨S, hS1, hS2⟩
    obtain ⟨s, hs⟩ := bshape_some hS1 hS2
    have hj := bshape_join hs
    have hsS : Into T.shape s ∧ Into TD.shape s := (hj s).1 (into_refl s)
    have hs0 := bshape_zero hs h1 h2
    have e : debyeNd T TD = ((indices s).mapM fun i => debyeTemperature (T.at' i) (TD.at' i)).bind fun vs =>
        .ok ⟨s, fun i => vs.getD ((indices s).idxOf i) 0⟩ := by
      unfold debyeNd
      rw [if_neg hne, hs]
      rfl
    have em : ((indices s).mapM fun i => debyeTemperature (T.at' i) (TD.at' i)) =
        ((indices s).map fun i => (T.at' i, TD.at' i)).mapM fun p => debyeTemperature p.1 p.2 := by
      rw [List.mapM_map]
      rfl
    refine ⟨fun hz1 hz2 => ?_, fun hz => ?_⟩
    · obtain ⟨vs, g1, g2, g3⟩ := mapM_debye ((indices s).map fun i => (T.at' i, TD.at' i)) (by
        intro p hp
        obtain ⟨i, hi, rfl⟩ := List.mem_map.1 hp
        have hv := mem_indices.1 hi
        exact ⟨hz1 _ (valid_align hsS.1 hv), hz2 _ (valid_align hsS.2 hv)⟩)
      rw [← em] at g1
      rw [e, g1]
      refine ⟨_, rfl, hj, fun i hi => ?_⟩
      have hm := mem_indices.2 hi
      have hlt := List.idxOf_lt_length_of_mem hm
      obtain ⟨v, g4, g5⟩ := g3 ((indices s).idxOf i) (T.at' i, TD.at' i) (by
        rw [List.getElem?_map, List.getElem?_eq_getElem hlt, List.getElem_idxOf hlt]
        rfl)
      show debyeTemperature (T.at' i) (TD.at' i) = .ok (vs.getD ((indices s).idxOf i) 0)
      rw [List.getD, g4]
      exact g5
    · have hz' : ∃ i ∈ indices s, T.at' i = 0 ∨ TD.at' i = 0 := by
        rcases hz with ⟨j, hj1, hj2⟩ | ⟨j, hj1, hj2⟩
        · obtain ⟨i, hi, he⟩ := valid_surj hsS.1 hs0 hj1
          exact ⟨i, mem_indices.2 hi, Or.inl (by rw [at', he]; exact hj2)⟩
        · obtain ⟨i, hi, he⟩ := valid_surj hsS.2 hs0 hj1
          exact ⟨i, mem_indices.2 hi, Or.inr (by rw [at', he]; exact hj2)⟩
      have key : ∀ l : List (List ℕ), (∃ i ∈ l, T.at' i = 0 ∨ TD.at' i = 0) →
          (l.mapM fun i => debyeTemperature (T.at' i) (TD.at' i)) = .error .zeroDivision := by
        intro l
        induction l with
        | nil => simp
        | cons i l ih =>
          rintro ⟨j, hj, h0⟩
          rw [List.mapM_cons]
          by_cases hi : T.at' i = 0 ∨ TD.at' i = 0
          · have : debyeTemperature (T.at' i) (TD.at' i) = .error .zeroDivision := by
              unfold debyeTemperature
              by_cases h : TD.at' i = 0
              · rw [if_pos h]
              · rw [if_neg h, if_pos (by tauto)]
            rw [this]; rfl
          · have hjl : j ∈ l := by
              rcases List.mem_cons.1 hj with rfl | h
              · exact absurd h0 hi
              · exact h
            rw [ih ⟨j, hjl, h0⟩]
            unfold debyeTemperature
            rw [if_neg (by tauto), if_neg (by tauto)]
            rfl
      rw [e, key _ hz']
      rfl
  · intro hS
    unfold debyeNd
    rw [if_neg hne]
    cases hb : bshape T.shape TD.shape with
    | none => rfl
    | some s => exact absurd ⟨s, (bshape_join hb s).1 (into_refl s)⟩ hS

/-- The temperatures as a row and the Debye temperatures as a column give a table. -/
example : ∃ v, debyeNd (Nd.vec [4, 77, 293]) (Nd.column [312, 1362]) = .ok v ∧ v.shape = [3, 2] := by
  obtain ⟨v, h1, h2, -⟩ := ((C99_nd_partial (Nd.vec [4, 77, 293]) (Nd.column [312, 1362]) (by simp [Nd.vec]) (by simp [Nd.column])).1
    ⟨[3, 2], by simp [Nd.vec, Into], by simp [Nd.column, Into]⟩).1 (by
      rintro i hi
      cases hi with
      | cons hk hr =>
        rename_i k r
        have : k = 0 ∨ k = 1 ∨ k = 2 := by simp at hk; omega
        rcases this with rfl | rfl | rfl <;> simp [Nd.vec]) (by
      rintro i hi
      cases hi with
      | cons hk hr =>
        cases hr with
        | cons hk' hr' =>
          rename_i k' r'
          have : k' = 0 ∨ k' = 1 := by simp at hk'; omega
          rcases this with rfl | rfl <;> simp [Nd.column])
  exact ⟨v, h1, shape_ext fun S => (h2 S).trans (by
    refine ⟨fun ⟨a, b⟩ => ?_, fun h => ⟨Into.trans (by simp [Nd.vec, Into]) h, Into.trans (by simp [Nd.column, Into]) h⟩⟩
    match S, a, b with
    | [], a, _ => simp [Nd.vec, Into] at a
    | [_], _, b => simp [Nd.column, Into] at b
    | x :: y :: S, a, b =>
      simp [Nd.vec, Nd.column, Into] at a b ⊢
      omega)⟩

end Ries
