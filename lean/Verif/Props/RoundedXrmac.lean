import Verif.Lemmas.RoundedXrmacShipped

/-! # C117: tabulated cross sections in floating point -/

namespace Ries

section
variable {u δ : ℝ} {fl lg pw : ℝ → ℝ} {t : Table}

/-- C117, proved part: at every tabulated energy (whose computed logarithm is not shared by a later row) the result is the
tabulated value up to a relative error. -/
theorem C117_nodes_partial (hlg : LogApprox δ lg) (hpw : PowApprox δ pw) (h0 : 0 ≤ δ) (h1 : δ ≤ 1) (ht : PosTable t) {E y : ℝ}
    (pre post : Table) (h : t = pre ++ (E, y) :: post) (hpost : ∀ r ∈ post, lg r.1 ≠ lg E) :
    ∃ v, xrmacCallR fl lg pw t E = .ok (.fin v) ∧ Within δ (δ * |Real.logb 10 y|) y y v := by
  have hy : 0 < y := (ht.2 (E, y) (by simp [h])).2
  refine ⟨_, xrmacCallR_node h rfl hpost, ?_⟩
  have := abs_le.1 (hlg.err y hy)
  exact pow_within hpw h0 h1 hy hy rfl rfl (by linarith) (by linarith)

/-- C117, proved part: at every energy between two neighbouring rows (with different computed logarithms), the result lies
between the values of these rows, up to a relative error - unless there is an absorption edge at the larger energy and
the computed logarithm of the energy is that of the edge. -/
theorem C117_partial (hu : Rounding u fl) (hu0 : 0 ≤ u) (hu1 : u ≤ 1 / 100) (hm : Monotone fl) (hlg : LogApprox δ lg)
    (hpw : PowApprox δ pw) (h0 : 0 ≤ δ) (h1 : δ ≤ 1) (ht : PosTable t) (hs : SortedTable t) {E E0 E1 y0 y1 M : ℝ}
    (pre post : Table) (h : t = pre ++ (E0, y0) :: (E1, y1) :: post) (hE0 : E0 < E) (hE1 : E < E1)
    (hsep : lg E0 < lg E1) (hedge : lg E < lg E1 ∨ ∀ r ∈ post, lg r.1 ≠ lg E1)
    (hM0 : |Real.logb 10 y0| ≤ M) (hM1 : |Real.logb 10 y1| ≤ M) :
    ∃ v, xrmacCallR fl lg pw t E = .ok (.fin v) ∧ Within δ ((δ + 16 * u) * M) (min y0 y1) (max y0 y1) v := by
  have p0 := ht.2 (E0, y0) (by simp [h])
  have p1 := ht.2 (E1, y1) (by simp [h])
  simp only at p0 p1
  have hM : 0 ≤ M := (abs_nonneg _).trans hM0
  have hEp : 0 < E := p0.1.trans hE0
  have a0 := hlg.err y0 p0.2
  have a1 := hlg.err y1 p1.2
  have c0 : |lg y0 - Real.logb 10 y0| ≤ δ * M := a0.trans (by gcongr)
  have c1 : |lg y1 - Real.logb 10 y1| ≤ δ * M := a1.trans (by gcongr)
  have d0 := abs_le.1 c0
  have d1 := abs_le.1 c1
  have huM : 0 ≤ u * M := mul_nonneg hu0 hM
  -- the logarithms of the smaller and of the larger value
  have emin : min (Real.logb 10 y0) (Real.logb 10 y1) = Real.logb 10 (min y0 y1) := by
    rcases le_total y0 y1 with hy | hy
    · rw [min_eq_left hy, min_eq_left (logb_le p0.2 hy)]
    · rw [min_eq_right hy, min_eq_right (logb_le p1.2 hy)]
  have emax : max (Real.logb 10 y0) (Real.logb 10 y1) = Real.logb 10 (max y0 y1) := by
    rcases le_total y0 y1 with hy | hy
    · rw [max_eq_right hy, max_eq_right (logb_le p0.2 hy)]
    · rw [max_eq_left hy, max_eq_left (logb_le p1.2 hy)]
  have fin : ∀ z, min (lg y0) (lg y1) - 16 * u * M ≤ z → z ≤ max (lg y0) (lg y1) + 16 * u * M →
      Within δ ((δ + 16 * u) * M) (min y0 y1) (max y0 y1) (pw z) := by
    intro z z0 z1
    refine pow_within hpw h0 h1 (lt_min p0.2 p1.2) (lt_max_of_lt_left p0.2) rfl rfl ?_ ?_
    · rw [← emin]
      have : min (Real.logb 10 y0) (Real.logb 10 y1) - δ * M ≤ min (lg y0) (lg y1) :=
        le_min (by linarith [min_le_left (Real.logb 10 y0) (Real.logb 10 y1)])
          (by linarith [min_le_right (Real.logb 10 y0) (Real.logb 10 y1)])
      linarith
    · rw [← emax]
      have : max (lg y0) (lg y1) ≤ max (Real.logb 10 y0) (Real.logb 10 y1) + δ * M :=
        max_le (by linarith [le_max_left (Real.logb 10 y0) (Real.logb 10 y1)])
          (by linarith [le_max_right (Real.logb 10 y0) (Real.logb 10 y1)])
      linarith
  have hsl : t.Pairwise fun a b => lg a.1 ≤ lg b.1 :=
    List.Pairwise.imp_of_mem (fun ha _ hab => hlg.mono _ _ (ht.2 _ ha).1 hab) hs
  have hpl : ∀ r ∈ post, lg E1 ≤ lg r.1 := by
    intro r hr
    rw [h, List.pairwise_append] at hsl
    have := hsl.2.1
    rw [List.pairwise_cons, List.pairwise_cons] at this
    exact this.2.1 r hr
  rcases (hlg.mono _ _ p0.1 hE0.le).eq_or_lt with e0 | l0
  · refine ⟨_, xrmacCallR_node h e0.symm ?_, fin _ ?_ ?_⟩
    · intro r hr
      rcases List.mem_cons.1 hr with rfl | hr
      · exact hsep.ne'
      · exact (hsep.trans_le (hpl r hr)).ne'
    · linarith [min_le_left (lg y0) (lg y1)]
    · linarith [le_max_left (lg y0) (lg y1)]
  rcases (hlg.mono _ _ hEp hE1.le).eq_or_lt with e1 | l1
  · have hp := hedge.resolve_left (by rw [e1]; exact lt_irrefl _)
    refine ⟨_, xrmacCallR_node (pre := pre ++ [(E0, y0)]) (E := E1) (y := y1) (post := post) (by simp [h]) e1 hp, fin _ ?_ ?_⟩
    · linarith [min_le_right (lg y0) (lg y1)]
    · linarith [le_max_right (lg y0) (lg y1)]
  · refine ⟨_, xrmacCallR_between h hsl l0 l1, ?_⟩
    have f0 : fl 0 = 0 := by simpa using hu 0
    have hD : 0 < fl (lg E1 - lg E0) := by
      have h3 := (abs_le.1 (hu (lg E1 - lg E0))).1
      rw [abs_of_pos (sub_pos.2 hsep)] at h3
      have h4 : u * (lg E1 - lg E0) ≤ 1 / 100 * (lg E1 - lg E0) :=
        mul_le_mul_of_nonneg_right hu1 (sub_pos.2 hsep).le
      linarith [sub_pos.2 hsep]
    have hb : ∀ y, |lg y - Real.logb 10 y| ≤ δ * M → |Real.logb 10 y| ≤ M → |lg y| ≤ 2 * M := by
      intro y h3 h4
      have : |lg y| ≤ |lg y - Real.logb 10 y| + |Real.logb 10 y| := by
        simpa using abs_add_le (lg y - Real.logb 10 y) (Real.logb 10 y)
      have : δ * M ≤ 1 * M := by gcongr
      linarith
    have := lerpR_range hu hu0 hu1 hm (hb y0 c0 hM0) (hb y1 c1 hM1)
      (d := fl (lg E - lg E0)) (D := fl (lg E1 - lg E0)) (by rw [← f0]; exact hm (sub_pos.2 l0).le)
      (hm (by linarith)) hD
    exact fin _ (by linarith [this.1]) (by linarith [this.2])
end

/-- C117 is false as stated: just below an absorption edge (here at the largest floating-point number below the edge) the result is the value above the
edge, because the computed logarithms are equal. Both neighbouring rows have the value 1, and the result is almost 8. -/
theorem C117_refuted : ∃ v, xrmacCallR KN.rn (fun x => KN.rn (Real.logb 10 x)) (fun y => KN.rn ((10 : ℝ) ^ y)) edgeTable
    (100 - 1 / 2 ^ 46) = .ok (.fin v) ∧ KN.rn (100 - 1 / 2 ^ 46) = 100 - 1 / 2 ^ 46 ∧ 7 < v := by
  have h8 : ∀ r ∈ ([(200, 8)] : Table), KN.rn (Real.logb 10 r.1) ≠ KN.rn (Real.logb 10 100) := by
    intro r hr
    obtain rfl := List.mem_singleton.1 hr
    have hl := lg_lt (x := 100) (y := 200) (ρ := 1) (B := 3) rn_log (by norm_num) (by norm_num) one_pos (by norm_num)
      ?_ ?_ (by norm_num)
    · exact ne_of_gt hl
    all_goals
      rw [abs_of_nonneg (Real.logb_nonneg (by norm_num) (by norm_num)),
        Real.logb_le_iff_le_rpow (by norm_num) (by norm_num)]
      norm_num
  refine ⟨_, xrmacCallR_node (pre := [(50, 1), (100, 1)]) rfl (by rw [rn_log_below, rn_log_hundred]) h8, ?_, ?_⟩
  · have := KN.rn_scale ((100 * 2 ^ 46 - 1 : ℤ) : ℝ) (-46)
    rw [KN.rn_exact (by norm_num)] at this
    norm_num at this ⊢
    exact this
  · have hw : ∀ ε, ε = (1 / 2 ^ 53 : ℝ) → Within ε (ε * |Real.logb 10 8|) 8 8 (KN.rn ((10 : ℝ) ^ KN.rn (Real.logb 10 8))) := by
      rintro ε rfl
      have := abs_le.1 (rn_log.err 8 (by norm_num))
      exact pow_within rn_pow (by norm_num) (by norm_num) (by norm_num) (by norm_num) rfl rfl (by linarith) (by linarith)
    obtain ⟨ε, he⟩ : ∃ ε, ε = (1 / 2 ^ 53 : ℝ) := ⟨_, rfl⟩
    have e0 : 0 < ε := by rw [he]; norm_num
    have e1 : ε < 1 / 10000 := by rw [he]; norm_num
    have hw := (hw ε he).1
    clear he
    have hl : |Real.logb 10 8| ≤ 1 := by
      rw [abs_of_nonneg (Real.logb_nonneg (by norm_num) (by norm_num)),
        Real.logb_le_iff_le_rpow (by norm_num) (by norm_num)]
      norm_num
    have hle : ε * |Real.logb 10 8| ≤ ε * 1 := by gcongr
    have hq : (99 / 100 : ℝ) ≤ (10 : ℝ) ^ (-(ε * |Real.logb 10 8|)) := by
      rw [Real.rpow_def_of_pos (by norm_num)]
      have l10 : Real.log 10 ≤ 9 := by
        have := Real.log_le_sub_one_of_pos (show (0 : ℝ) < 10 by norm_num)
        linarith
      have h3 := Real.add_one_le_exp (Real.log 10 * -(ε * |Real.logb 10 8|))
      have h4 : Real.log 10 * (ε * |Real.logb 10 8|) ≤ 9 * (ε * 1) := by gcongr
      linarith
    have h3 : (99 / 100 : ℝ) ≤ 1 - ε := by linarith
    have h4 := mul_le_mul h3 hq (by norm_num) (by linarith)
    linarith

/-! ## The shipped tables -/

section
variable {u δ : ℝ} {fl lg pw : ℝ → ℝ}

/-- C117 for the shipped tables: at every energy of a table the computed cross section is the number in the file, up to a
relative error of `10^(-12)`; at an absorption edge the number of the last row with that energy. -/
theorem C117_shipped_nodes (hu : Rounding u fl) (hu0 : 0 ≤ u) (hu1 : u ≤ 1 / 10 ^ 15) (hlg : LogApprox δ lg)
    (hpw : PowApprox δ pw) (h0 : 0 ≤ δ) (h1 : δ ≤ 1 / 10 ^ 15) {Z : ℕ} (hZ : Z ∈ List.range' 1 92) (pre post : List Line) (l : Line)
    (h : xrmacLines Z = pre ++ l :: post) (hpost : ∀ l' ∈ post, l'.energy.value ≠ l.energy.value) :
    ∃ v, xrmacCallR fl lg pw (storedRows fl (xrmacLines Z)) (fl (l.energy.value : ℝ)) = .ok (.fin v) ∧
      |v - (l.mu.value : ℝ)| ≤ 1e-12 * (l.mu.value : ℝ) := by
  have hg := shipped_good hZ
  have hs := shipped_sepTable hZ
  generalize xrmacLines Z = ls at h hg hs
  have hl : l ∈ ls := by simp [h]
  have hlt := lg_ne hs hu hu0 hu1 hlg h0 h1 h hpost
  obtain ⟨v, hv, hw⟩ := C117_nodes_partial (fl := fl) hlg hpw h0 (by norm_num at h1; linarith) (storedRows_pos hg hu hu1)
    (E := fl (l.energy.value : ℝ)) (y := fl (l.mu.value : ℝ)) (storedRows fl pre) (storedRows fl post)
    (by simp [storedRows, h]) (by
      intro r hr
      obtain ⟨l', hl', rfl⟩ := List.mem_map.1 hr
      exact (hlt l' hl').ne')
  refine ⟨v, hv, ?_⟩
  obtain ⟨m0, m1, m2, m3⟩ := size_bounds hs hu hu0 hu1 hl
  have hη : δ * |Real.logb 10 (fl (l.mu.value : ℝ))| ≤ 102 / 10 ^ 15 := by
    have := mul_le_mul h1 m3 (abs_nonneg _) (by norm_num)
    norm_num at this ⊢
    linarith
  have := within_small h0 h1 (mul_nonneg h0 (abs_nonneg _)) hη m0 m0 m1 m2 hw
  rw [abs_le]
  constructor <;> linarith [this.1, this.2]

/-- C117 for the shipped tables: between neighbouring rows, the computed cross section lies between the numbers in the file,
up to a relative error of `10^(-12)` - except directly below an absorption edge. -/
theorem C117_shipped_between_partial (hu : Rounding u fl) (hu0 : 0 ≤ u) (hu1 : u ≤ 1 / 10 ^ 15) (hm : Monotone fl) (hlg : LogApprox δ lg)
    (hpw : PowApprox δ pw) (h0 : 0 ≤ δ) (h1 : δ ≤ 1 / 10 ^ 15) {Z : ℕ} (hZ : Z ∈ List.range' 1 92) (pre post : List Line) (l0 l1 : Line)
    (h : xrmacLines Z = pre ++ l0 :: l1 :: post) {E : ℝ} (hE0 : fl (l0.energy.value : ℝ) < E)
    (hE1 : E < fl (l1.energy.value : ℝ))
    (hedge : lg E < lg (fl (l1.energy.value : ℝ)) ∨ ∀ l' ∈ post, l'.energy.value ≠ l1.energy.value) :
    ∃ v, xrmacCallR fl lg pw (storedRows fl (xrmacLines Z)) E = .ok (.fin v) ∧
      (1 - 1e-12) * min (l0.mu.value : ℝ) (l1.mu.value : ℝ) ≤ v ∧
      v ≤ (1 + 1e-12) * max (l0.mu.value : ℝ) (l1.mu.value : ℝ) := by
  have hg := shipped_good hZ
  have hs := shipped_sepTable hZ
  generalize xrmacLines Z = ls at h hg hs
  have hl0 : l0 ∈ ls := by simp [h]
  have hl1 : l1 ∈ ls := by simp [h]
  obtain ⟨m0, m1, m2, m3⟩ := size_bounds hs hu hu0 hu1 hl0
  obtain ⟨n0, n1, n2, n3⟩ := size_bounds hs hu hu0 hu1 hl1
  have hne : l0.energy.value ≠ l1.energy.value := by
    intro e
    rw [e] at hE0
    exact absurd (hE0.trans hE1) (lt_irrefl _)
  have hsep : lg (fl (l0.energy.value : ℝ)) < lg (fl (l1.energy.value : ℝ)) := by
    have hp := hs.sep
    rw [h, List.pairwise_append] at hp
    have := (List.pairwise_cons.1 hp.2.1).1 l1 (by simp)
    exact lg_energy hs hu hu0 hu1 hlg h0 h1 hl0 hl1 (this.resolve_left hne)
  obtain ⟨v, hv, hw⟩ := C117_partial hu hu0 (by norm_num at hu1 ⊢; linarith) hm hlg hpw h0 (by norm_num at h1; linarith)
    (storedRows_pos hg hu hu1) (storedRows_sorted hg hm)
    (E0 := fl (l0.energy.value : ℝ)) (E1 := fl (l1.energy.value : ℝ)) (y0 := fl (l0.mu.value : ℝ)) (y1 := fl (l1.mu.value : ℝ))
    (storedRows fl pre) (storedRows fl post) (by simp [storedRows, h]) hE0 hE1 hsep
    (hedge.imp id fun hp r hr => by
      obtain ⟨l', hl', rfl⟩ := List.mem_map.1 hr
      exact (lg_ne (pre := pre ++ [l0]) hs hu hu0 hu1 hlg h0 h1 (by simp [h]) hp l' hl').ne') m3 n3
  refine ⟨v, hv, ?_⟩
  have hη0 : 0 ≤ (δ + 16 * u) * 6 := by positivity
  have hη : (δ + 16 * u) * 6 ≤ 102 / 10 ^ 15 := by
    norm_num at h1 hu1 ⊢
    linarith
  refine within_small h0 h1 hη0 hη (lt_min m0 n0) (lt_max_of_lt_left m0) ?_ ?_ hw
  · refine le_min (le_trans ?_ m1) (le_trans ?_ n1)
    · have := min_le_left (l0.mu.value : ℝ) (l1.mu.value : ℝ)
      exact mul_le_mul_of_nonneg_left this (by norm_num)
    · have := min_le_right (l0.mu.value : ℝ) (l1.mu.value : ℝ)
      exact mul_le_mul_of_nonneg_left this (by norm_num)
  · refine max_le (m2.trans ?_) (n2.trans ?_)
    · have := le_max_left (l0.mu.value : ℝ) (l1.mu.value : ℝ)
      exact mul_le_mul_of_nonneg_left this (by norm_num)
    · have := le_max_right (l0.mu.value : ℝ) (l1.mu.value : ℝ)
      exact mul_le_mul_of_nonneg_left this (by norm_num)
end

/-- Python floats with correctly rounded functions meet the conditions on the arithmetic. -/
example : Rounding (1 / 2 ^ 53) KN.rn ∧ Monotone KN.rn ∧ LogApprox (1 / 2 ^ 53) (fun x => KN.rn (Real.logb 10 x)) ∧
    PowApprox (1 / 2 ^ 53) (fun y => KN.rn ((10 : ℝ) ^ y)) ∧ (1 / 2 ^ 53 : ℝ) ≤ 1 / 10 ^ 15 :=
  ⟨KN.rn_rounding, KN.rn_monotone, rn_log, rn_pow, by norm_num⟩

/-- The table with an edge at energy 100 meets the conditions of `C117_partial` at energy 150. -/
example : ∃ v, xrmacCallR KN.rn (fun x => KN.rn (Real.logb 10 x)) (fun y => KN.rn ((10 : ℝ) ^ y)) edgeTable 150 = .ok (.fin v) ∧
    Within (1 / 2 ^ 53) ((1 / 2 ^ 53 + 16 * (1 / 2 ^ 53)) * 1) 8 8 v := by
  have hb : ∀ x, (1 : ℝ) ≤ x → x ≤ 1000 → |Real.logb 10 x| ≤ (3 : ℕ) := fun x h0 h1 =>
    logb_small (by norm_num; linarith) (by norm_num; linarith)
  have hl := lg_lt (x := 100) (y := 200) (ρ := 1) (B := (3 : ℕ)) rn_log (by norm_num) (by norm_num) one_pos (by norm_num)
    (hb _ (by norm_num) (by norm_num)) (hb _ (by norm_num) (by norm_num)) (by norm_num)
  have h8 : |Real.logb 10 8| ≤ 1 := by
    have := logb_small (x := 8) (n := 1) (by norm_num) (by norm_num)
    simpa using this
  simpa using C117_partial KN.rn_rounding (by norm_num) (by norm_num) KN.rn_monotone rn_log rn_pow (by norm_num) (by norm_num)
    edgeTable_pos edgeTable_sorted (E := 150) [(50, 1), (100, 1)] [] rfl (by norm_num) (by norm_num) hl (Or.inr (by simp)) h8 h8

/-- rows of a shipped table -/
example : ∃ l0 l1 post, xrmacLines 1 = l0 :: l1 :: post ∧ l0.energy.value < l1.energy.value := by
  refine ⟨_, _, _, rfl, ?_⟩
  decide +kernel

end Ries
