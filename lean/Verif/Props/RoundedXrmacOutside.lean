import Verif.Props.RoundedXrmac

/-! # C117 outside of the table -/

namespace Ries

variable {fl lg pw : ℝ → ℝ} {u δ : ℝ} {t : Table}

/-- energies whose computed logarithm lies below those of all rows -/
theorem xrmacCallR_below {E0 y0 E : ℝ} {rest : Table} (hs : ((E0, y0) :: rest).Pairwise fun a b => lg a.1 ≤ lg b.1)
    (h : lg E < lg E0) : xrmacCallR fl lg pw ((E0, y0) :: rest) E = .ok (.fin (pw (lg y0))) := by
  obtain ⟨q, hq⟩ : ∃ q, ((E0, y0) :: rest).getLast? = some q := ⟨_, List.getLast?_eq_getLast_of_ne_nil (by simp)⟩
  simp only [xrmacCallR, List.head?_cons, hq, interp1dR]
  rw [sortNodes_of_sorted (by rw [List.pairwise_map]; exact hs)]
  obtain ⟨q', hq'⟩ : ∃ q', (((E0, y0) :: rest).map fun r => (lg r.1, Fl.fin (lg r.2))).getLast? = some q' :=
    ⟨_, List.getLast?_eq_getLast_of_ne_nil (by simp)⟩
  rw [hq']
  simp only [List.map_cons, List.head?_cons]
  rw [if_pos h]
  rfl

/-- energies whose computed logarithm lies above those of all rows -/
theorem xrmacCallR_above {E1 y1 E : ℝ} {pre : Table} (hs : (pre ++ [(E1, y1)]).Pairwise fun a b => lg a.1 ≤ lg b.1)
    (h : lg E1 < lg E) : xrmacCallR fl lg pw (pre ++ [(E1, y1)]) E = .ok (.fin (pw (lg y1))) := by
  obtain ⟨p, hp⟩ : ∃ p, (pre ++ [(E1, y1)]).head? = some p := by cases pre <;> exact ⟨_, rfl⟩
  have hle : lg p.1 ≤ lg E1 := by
    cases pre with
    | nil => simp at hp; rw [← hp]
    | cons r s =>
      simp at hp
      subst hp
      exact (List.pairwise_cons.1 hs).1 (E1, y1) (by simp)
  simp only [xrmacCallR, hp, List.getLast?_append, List.getLast?_singleton, Option.some_or, interp1dR]
  rw [sortNodes_of_sorted (by rw [List.pairwise_map]; exact hs)]
  rw [List.head?_map, hp]
  simp only [Option.map_some, List.map_append, List.map_cons, List.map_nil, List.getLast?_append, List.getLast?_singleton,
    Option.some_or]
  rw [if_neg (by linarith), if_pos h]
  rfl

theorem PosTable.lg_sorted (ht : PosTable t) (hs : SortedTable t) (hlg : LogApprox δ lg) : t.Pairwise fun a b => lg a.1 ≤ lg b.1 :=
  List.Pairwise.imp_of_mem (fun ha _ h => hlg.mono _ _ (ht.2 _ ha).1 h) hs

theorem node_within (hlg : LogApprox δ lg) (hpw : PowApprox δ pw) (h0 : 0 ≤ δ) (h1 : δ ≤ 1) {y : ℝ} (hy : 0 < y) :
    Within δ (δ * |Real.logb 10 y|) y y (pw (lg y)) := by
  have := abs_le.1 (hlg.err y hy)
  exact pow_within hpw h0 h1 hy hy rfl rfl (by linarith) (by linarith)

/-- C117 below the table: the value of the first row up to a relative error, unless there is an edge at the smallest energy and the computed
logarithms of the energy and the edge agree. -/
theorem C117_below (hlg : LogApprox δ lg) (hpw : PowApprox δ pw) (h0 : 0 ≤ δ) (h1 : δ ≤ 1) {E0 y0 E : ℝ} {rest : Table}
    (ht : PosTable ((E0, y0) :: rest)) (hs : SortedTable ((E0, y0) :: rest)) (hE : 0 < E) (hE0 : E < E0)
    (hedge : lg E < lg E0 ∨ ∀ r ∈ rest, lg r.1 ≠ lg E0) :
    ∃ v, xrmacCallR fl lg pw ((E0, y0) :: rest) E = .ok (.fin v) ∧ Within δ (δ * |Real.logb 10 y0|) y0 y0 v := by
  have hy : 0 < y0 := (ht.2 (E0, y0) (by simp)).2
  refine ⟨pw (lg y0), ?_, node_within hlg hpw h0 h1 hy⟩
  rcases (hlg.mono E E0 hE hE0.le).lt_or_eq with h | h
  · exact xrmacCallR_below (ht.lg_sorted hs hlg) h
  · exact xrmacCallR_node (pre := []) (post := rest) rfl h (hedge.resolve_left (by rw [h]; exact lt_irrefl _))

/-- C117 above the table: the value of the last row up to a relative error. -/
theorem C117_above (hlg : LogApprox δ lg) (hpw : PowApprox δ pw) (h0 : 0 ≤ δ) (h1 : δ ≤ 1) {E1 y1 E : ℝ} {pre : Table}
    (ht : PosTable (pre ++ [(E1, y1)])) (hs : SortedTable (pre ++ [(E1, y1)])) (hE1 : E1 < E) :
    ∃ v, xrmacCallR fl lg pw (pre ++ [(E1, y1)]) E = .ok (.fin v) ∧ Within δ (δ * |Real.logb 10 y1|) y1 y1 v := by
  have p := ht.2 (E1, y1) (by simp)
  refine ⟨pw (lg y1), ?_, node_within hlg hpw h0 h1 p.2⟩
  rcases (hlg.mono E1 E p.1 hE1.le).lt_or_eq with h | h
  · exact xrmacCallR_above (ht.lg_sorted hs hlg) h
  · exact xrmacCallR_node (pre := pre) (post := []) rfl h.symm (by simp)

/-- The table with an edge at energy 100 meets the conditions of both parts, at energies 20 and 300. -/
example : (∃ v, xrmacCallR KN.rn (fun x => KN.rn (Real.logb 10 x)) (fun y => KN.rn ((10 : ℝ) ^ y)) edgeTable 20 = .ok (.fin v) ∧
      Within (1 / 2 ^ 53) (1 / 2 ^ 53 * |Real.logb 10 1|) 1 1 v) ∧
    ∃ v, xrmacCallR KN.rn (fun x => KN.rn (Real.logb 10 x)) (fun y => KN.rn ((10 : ℝ) ^ y)) edgeTable 300 = .ok (.fin v) ∧
      Within (1 / 2 ^ 53) (1 / 2 ^ 53 * |Real.logb 10 8|) 8 8 v := by
  have hb : ∀ x, (1 : ℝ) ≤ x → x ≤ 1000 → |Real.logb 10 x| ≤ (3 : ℕ) := fun x h0 h1 =>
    logb_small (by norm_num; linarith) (by norm_num; linarith)
  have hl := lg_lt (x := 20) (y := 50) (ρ := 1) (B := (3 : ℕ)) rn_log (by norm_num) (by norm_num) one_pos (by norm_num)
    (hb _ (by norm_num) (by norm_num)) (hb _ (by norm_num) (by norm_num)) (by norm_num)
  refine ⟨C117_below rn_log rn_pow (by norm_num) (by norm_num) edgeTable_pos edgeTable_sorted (by norm_num) (by norm_num) (.inl hl),
    C117_above (pre := [(50, 1), (100, 1), (100, 8)]) rn_log rn_pow (by norm_num) (by norm_num) edgeTable_pos edgeTable_sorted
      (by norm_num)⟩

end Ries
