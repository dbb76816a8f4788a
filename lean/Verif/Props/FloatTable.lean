import Verif.Lemmas.RoundedXrmacValue
import Verif.Lemmas.ShippedXrmacSlope
import Verif.Props.XrmacPower
import Verif.Props.FloatSumParts

/-! # C192: tabulated cross sections in floating point against the exact interpolation of the table -/

namespace Ries

open Set Text

/-- C192 for tables: between two neighbouring rows of a table, the result differs from the exact interpolated value by a
relative error that depends on the size of the logarithms (`X` for the energies, `M` for the values) and on the steepness
`S` of the cross section, but not on the distance of the rows. -/
theorem C192_table {u δ X M S : ℝ} {fl lg pw : ℝ → ℝ} {t : Table} (hu : Rounding u fl) (hu0 : 0 ≤ u) (hu1 : u ≤ 1 / 1000)
    (hlg : LogApprox δ lg) (hpw : PowApprox δ pw) (h0 : 0 ≤ δ) (h1 : δ ≤ 1) (ht : PosTable t) (hs : SortedTable t) {E E0 E1 y0 y1 : ℝ}
    (pre post : Table) (h : t = pre ++ (E0, y0) :: (E1, y1) :: post) (hE0 : E0 < E) (hE1 : E < E1)
    (hsep : lg E0 < lg E1) (hedge : lg E < lg E1 ∨ ∀ r ∈ post, lg r.1 ≠ lg E1)
    (x0 : |Real.logb 10 E0| ≤ X) (x1 : |Real.logb 10 E1| ≤ X) (M0 : |Real.logb 10 y0| ≤ M) (M1 : |Real.logb 10 y1| ≤ M)
    (hS : |Real.log (y1 / y0)| ≤ S * Real.log (E1 / E0)) :
    ∃ v w, xrmacCallR fl lg pw t E = .ok (.fin v) ∧ HasValue t E w ∧
      Within δ (δ * M + 2 * (δ * X) * S + 24 * u * M) w w v := by
  have p0 := ht.2 (E0, y0) (by simp [h])
  have p1 := ht.2 (E1, y1) (by simp [h])
  simp only at p0 p1
  have hl : 0 < Real.log 10 := Real.log_pos (by norm_num)
  obtain ⟨v, hv, hw⟩ := xrmacCallR_law (κ := 0) (S := S) hu hu0 hu1 hlg hpw h0 h1 ht hs pre post h hE0.le hE1.le hsep hedge p0.1
    (hE0.trans hE1) p0.2 p1.2 (p0.1.trans hE0) (by simp) (by simp) (by simp) (by simp) (by simp) x0 x1 M0 M1 (by
      rw [← Real.logb_div p1.2.ne' p0.2.ne', ← Real.logb_div p1.1.ne' p0.1.ne', Real.logb, Real.logb, abs_div, abs_of_pos hl,
        ← mul_div_assoc]
      exact div_le_div_of_nonneg_right hS hl.le)
  refine ⟨v, _, hv, C49_power_law ht hs pre post h hE0 hE1, ?_⟩
  simpa only [zero_add] using hw

/-- a row and its successor around an energy -/
theorem exists_rows {α : Type*} (e : α → ℝ) : ∀ (ls : List α) {E : ℝ}, (∃ l, ls.head? = some l ∧ e l ≤ E) → (∃ l ∈ ls, E < e l) →
    ∃ pre a b post, ls = pre ++ a :: b :: post ∧ e a ≤ E ∧ E < e b
  | [], E, h, _ => by simp at h
  | [a], E, h, h' => by
    simp only [List.head?_cons, Option.some.injEq, exists_eq_left', List.mem_singleton] at h h'
    obtain ⟨l, rfl, hl⟩ := h'
    linarith
  | a :: b :: ls, E, h, h' => by
    simp only [List.head?_cons, Option.some.injEq, exists_eq_left'] at h
    by_cases hb : E < e b
    · exact ⟨[], a, b, ls, rfl, h, hb⟩
    · obtain ⟨l, hl, hlE⟩ := h'
      have hl' : l ∈ b :: ls := by
        rcases List.mem_cons.1 hl with rfl | hl
        · linarith
        · exact hl
      obtain ⟨pre, c, d, post, h1, h2, h3⟩ := exists_rows e (b :: ls) ⟨b, rfl, not_lt.1 hb⟩ ⟨l, hl', hlE⟩
      exact ⟨a :: pre, c, d, post, by rw [h1]; rfl, h2, h3⟩

/-- a bound on the steepness between the rows is one for the interpolated values -/
theorem steep_values {t : Table} (ht : PosTable t) (hs : SortedTable t) {A : ℝ} {n : ℕ}
    (hc : t.IsChain fun p q => q.1 ≤ A ∨ (p.1 < q.1 ∧ q.2 * p.1 ^ n < p.2 * q.1 ^ n ∧ p.2 * p.1 ^ n < q.2 * q.1 ^ n))
    (hA : ∃ r, t.head? = some r ∧ r.1 ≤ A) {B : ℝ} (hB : ∃ r ∈ t, B ≤ r.1) {E1 E2 v1 v2 : ℝ} (h1 : A ≤ E1)
    (h12 : E1 < E2) (h2 : E2 ≤ B) (hv1 : HasValue t E1 v1) (hv2 : HasValue t E2 v2) :
    v2 * E1 ^ n < v1 * E2 ^ n ∧ v1 * E1 ^ n < v2 * E2 ^ n := by
  have hfall := C183_fall (n := n * 5) ht hs (hc.imp_of_mem_imp fun p q hp hq h => h.imp id fun h => ⟨h.1, by
    rw [pow_mul, pow_mul, ← mul_pow, ← mul_pow]
    have := ht.2 p hp
    exact pow_lt_pow_left₀ h.2.2 (mul_pos this.2 (pow_pos this.1 _)).le (by norm_num)⟩) hA hB h1 h12 h2 hv1 hv2
  obtain ⟨a, ha, haA⟩ := hA
  have ham := List.mem_of_mem_head? ha
  have ha0 : 0 < a.1 := (ht.2 a ham).1
  have hE1 : 0 < E1 := by linarith
  have hE2 : 0 < E2 := by linarith
  have hv : ∀ {E v}, 0 < E → HasValue t E v → 0 < v := fun hE hv => by
    have := hv.symm.trans (call_interpR ht hs hE)
    simp only [Except.ok.injEq, Fl.fin.injEq] at this
    rw [this]
    exact Real.rpow_pos_of_pos (by norm_num) _
  constructor
  · obtain ⟨b, hb, hbB⟩ := hB
    have p1 := C183_power ht hs (-n : ℝ) 1 ⟨a, ham, haA.trans h1⟩ ⟨b, hb, by linarith⟩ hv1
    have p2 := C183_power ht hs (-n : ℝ) 1 ⟨a, ham, by linarith⟩ ⟨b, hb, by linarith⟩ hv2
    have ht' : PosTable (t.map fun r => (r.1, r.1 ^ (-n : ℝ) * r.2 ^ (1 : ℝ))) := by
      refine ⟨by simpa using ht.1, fun r hr => ?_⟩
      obtain ⟨q, hq, rfl⟩ := List.mem_map.1 hr
      have := ht.2 q hq
      exact ⟨this.1, mul_pos (Real.rpow_pos_of_pos this.1 _) (Real.rpow_pos_of_pos this.2 _)⟩
    have key : ∀ x y : ℝ, 0 < x → x ^ (-n : ℝ) * y ^ (1 : ℝ) = y / x ^ n := by
      intro x y hx
      rw [Real.rpow_neg hx.le, Real.rpow_natCast, Real.rpow_one]
      ring
    have hd : DecreasingRows A B (t.map fun r => (r.1, r.1 ^ (-n : ℝ) * r.2 ^ (1 : ℝ))) := by
      refine (List.isChain_map _).2 (List.IsChain.imp_of_mem_imp ?_ hc)
      intro p q hp hq h
      have p0 := (ht.2 p hp).1
      have q0 := (ht.2 q hq).1
      rcases h with h | h
      · exact .inl h
      · refine .inr (.inr ⟨h.1, ?_⟩)
        simp only
        rw [key _ _ p0, key _ _ q0, div_lt_div_iff₀ (pow_pos q0 _) (pow_pos p0 _)]
        exact h.2.1
    have := C166_decreasing ht' (List.pairwise_map.2 hs) hd
      ⟨(a.1, a.1 ^ (-n : ℝ) * a.2 ^ (1 : ℝ)), by rw [List.head?_map, ha, Option.map_some], haA⟩
      ⟨_, List.mem_map_of_mem hb, hbB⟩ h1 h12 h2 p1 p2
    rwa [key _ _ hE1, key _ _ hE2, div_lt_div_iff₀ (pow_pos hE2 _) (pow_pos hE1 _)] at this
  · rw [pow_mul, pow_mul, ← mul_pow, ← mul_pow] at hfall
    exact lt_of_pow_lt_pow_left₀ 5 (mul_pos (hv hE2 hv2) (pow_pos hE2 _)).le hfall

/-! ## The shipped tables -/

/-- a small relative change, in terms of the logarithm -/
theorem logb_near {x y : ℝ} (hx : 0 < x) (h : |y - x| ≤ 1 / 10 ^ 15 * x) : |Real.logb 10 y - Real.logb 10 x| ≤ 6 / 10 ^ 16 := by
  have hb := abs_le.1 h
  have hy : 0 < y := by
    have : (1 / 10 ^ 15 : ℝ) * x ≤ 1 / 2 * x := by gcongr; norm_num
    linarith
  have l10 := log_ten_ge
  rw [← Real.logb_div hy.ne' hx.ne', Real.logb, abs_div, abs_of_pos (by linarith : 0 < Real.log 10), div_le_iff₀ (by linarith)]
  have h1 : 1 - 1 / 10 ^ 15 ≤ y / x := by rw [le_div_iff₀ hx]; linarith [hb.1]
  have h2 : y / x ≤ 1 + 1 / 10 ^ 15 := by rw [div_le_iff₀ hx]; linarith [hb.2]
  have hq : 0 < y / x := div_pos hy hx
  have l1 := Real.log_le_sub_one_of_pos hq
  have l2 := Real.one_sub_inv_le_log_of_pos hq
  have l3 : (y / x)⁻¹ ≤ (1 - 1 / 10 ^ 15 : ℝ)⁻¹ := inv_anti₀ (by norm_num) h1
  have l4 : (1 - 1 / 10 ^ 15 : ℝ)⁻¹ ≤ 1 + 11 / 10 ^ 16 := by norm_num
  have l5 : (6 / 10 ^ 16 : ℝ) * 2 ≤ 6 / 10 ^ 16 * Real.log 10 := by gcongr
  rw [abs_le]
  norm_num at *
  constructor <;> linarith

/-- the error of a computed value in a shipped table -/
theorem within_close {δ η w v : ℝ} (h1 : δ ≤ 1 / 10 ^ 15) (e0 : 0 ≤ η) (e1 : η ≤ 1.1e-12) (hw : 0 < w)
    (h : Within δ η w w v) : |v - w| ≤ 4.5e-12 * w := by
  obtain ⟨p0, p1⟩ := pow_small e0 (by norm_num at e1 ⊢; linarith)
  have k1 : (1 - 1 / 10 ^ 15 : ℝ) ≤ 1 - δ := by linarith
  have k2 : (1 - 3.3e-12 : ℝ) ≤ (10 : ℝ) ^ (-η) := by norm_num at e1 ⊢; linarith
  have k3 := mul_le_mul k1 k2 (by norm_num) (by norm_num at h1; linarith)
  have k4 : 1 + δ ≤ (1 + 1 / 10 ^ 15 : ℝ) := by linarith
  have k5 : (10 : ℝ) ^ η ≤ (1 + 4.4e-12 : ℝ) := by norm_num at e1 ⊢; linarith
  have k6 : (1 + δ) * (10 : ℝ) ^ η ≤ (1 + 1 / 10 ^ 15) * (1 + 4.4e-12) := mul_le_mul k4 k5 (by positivity) (by norm_num)
  have k7 := mul_le_mul_of_nonneg_right k3 hw.le
  have k8 := mul_le_mul_of_nonneg_right k6 hw.le
  have h3 := h.1
  have h4 := h.2
  rw [abs_le]
  norm_num at k7 k8 ⊢
  constructor <;> linarith

section
variable {u δ : ℝ} {fl lg pw : ℝ → ℝ}

/-- rounding of the numbers in a file -/
theorem fl_near (hu : Rounding u fl) (hu1 : u ≤ 1 / 10 ^ 15) {x : ℝ} (hx : 0 < x) : |fl x - x| ≤ 1 / 10 ^ 15 * x := by
  have := hu x
  rw [abs_of_pos hx] at this
  exact this.trans (by gcongr)

/-- the computed value between the stored rows, against the power law through the numbers in the file, at an energy that may be
off by a rounding -/
theorem shipped_law (hu : Rounding u fl) (hu0 : 0 ≤ u) (hu1 : u ≤ 1 / 10 ^ 15) (hm : Monotone fl) (hlg : LogApprox δ lg)
    (hpw : PowApprox δ pw) (h0 : 0 ≤ δ) (h1 : δ ≤ 1 / 10 ^ 15) {Z : ℕ} (hZ : Z ∈ List.range' 1 92) (pre post : List Line) (l0 l1 : Line)
    (h : xrmacLines Z = pre ++ l0 :: l1 :: post) {E E' : ℝ} (hlt : l0.energy.value < l1.energy.value)
    (hE0 : fl (l0.energy.value : ℝ) ≤ E) (hE1 : E ≤ fl (l1.energy.value : ℝ)) (hE' : 0 < E') (hEE : |E - E'| ≤ 1 / 10 ^ 15 * E')
    (hedge : lg E < lg (fl (l1.energy.value : ℝ)) ∨ ∀ l' ∈ post, l'.energy.value ≠ l1.energy.value) :
    ∃ v, xrmacCallR fl lg pw (storedRows fl (xrmacLines Z)) E = .ok (.fin v) ∧
      |v - (l0.mu.value : ℝ) * (E' / l0.energy.value) ^ (Real.log (l1.mu.value / l0.mu.value : ℝ) / Real.log (l1.energy.value / l0.energy.value : ℝ))| ≤
        4.5e-12 * ((l0.mu.value : ℝ) * (E' / l0.energy.value) ^ (Real.log (l1.mu.value / l0.mu.value : ℝ) / Real.log (l1.energy.value / l0.energy.value : ℝ))) := by
  have hg := shipped_good hZ
  have hs := shipped_sepTable hZ
  have hst := shipped_steep hZ
  generalize xrmacLines Z = ls at h hg hs hst
  have hl0 : l0 ∈ ls := by simp [h]
  have hl1 : l1 ∈ ls := by simp [h]
  obtain ⟨m0, m1, m2, m3⟩ := size_bounds hs hu hu0 hu1 hl0
  obtain ⟨n0, n1, n2, n3⟩ := size_bounds hs hu hu0 hu1 hl1
  have q0 : (0 : ℝ) < l0.energy.value := Rat.cast_pos.2 (hg.pos l0 hl0).1
  have hltR : (l0.energy.value : ℝ) < l1.energy.value := Rat.cast_lt.2 hlt
  have q1 : (0 : ℝ) < l1.energy.value := q0.trans hltR
  have hsep : lg (fl (l0.energy.value : ℝ)) < lg (fl (l1.energy.value : ℝ)) := by
    have hp := hs.sep
    rw [h, List.pairwise_append] at hp
    have := (List.pairwise_cons.1 hp.2.1).1 l1 (by simp)
    exact lg_energy hs hu hu0 hu1 hlg h0 h1 hl0 hl1 (this.resolve_left hlt.ne)
  have hX : ∀ l ∈ ls, |Real.logb 10 (fl (l.energy.value : ℝ))| ≤ 4 := by
    intro l hl
    have r := hs.range l hl
    have r0 : (1 / 1000 : ℝ) ≤ l.energy.value := by
      have := (Rat.cast_le (K := ℝ)).2 r.1
      push_cast at this
      exact this
    have r1 : (l.energy.value : ℝ) ≤ 20 := by
      have := (Rat.cast_le (K := ℝ)).2 r.2
      push_cast at this
      exact this
    generalize (l.energy.value : ℝ) = x at *
    have fx := fl_bounds hu (x := x) (by linarith)
    have ux : u * x ≤ 1 / 10 ^ 15 * x := by gcongr
    have uz0 : 0 ≤ u * x := mul_nonneg hu0 (by linarith)
    have : |Real.logb 10 (fl x)| ≤ (4 : ℕ) := by
      refine logb_small ?_ ?_ <;> norm_num at ux ⊢ <;> linarith
    simpa using this
  have hS : |Real.logb 10 (l1.mu.value : ℝ) - Real.logb 10 (l0.mu.value : ℝ)| ≤
      100 * (Real.logb 10 (l1.energy.value : ℝ) - Real.logb 10 (l0.energy.value : ℝ)) := by
    refine steep_log q0 hltR m0 n0 ?_
    unfold steepLines at hst
    rw [h] at hst
    have := (List.isChain_append.1 hst).2.1
    have := (List.isChain_cons_cons.1 this).1
    have := this.resolve_left hlt.ne
    exact_mod_cast this
  obtain ⟨v, hv, hw⟩ := xrmacCallR_law (κ := 6 / 10 ^ 16) (X := 4) (M := 6) (S := 100) hu hu0
    (by norm_num at hu1 ⊢; linarith) hlg hpw h0 (by norm_num at h1; linarith)
    (storedRows_pos hg hu hu1) (storedRows_sorted hg hm)
    (E0 := fl (l0.energy.value : ℝ)) (E1 := fl (l1.energy.value : ℝ)) (y0 := fl (l0.mu.value : ℝ)) (y1 := fl (l1.mu.value : ℝ))
    (storedRows fl pre) (storedRows fl post) (by simp [storedRows, h]) hE0 hE1 hsep
    (hedge.imp id fun hp r hr => by
      obtain ⟨l', hl', rfl⟩ := List.mem_map.1 hr
      exact (lg_ne (pre := pre ++ [l0]) hs hu hu0 hu1 hlg h0 h1 (by simp [h]) hp l' hl').ne')
    q0 hltR m0 n0 hE' (logb_near q0 (fl_near hu hu1 q0)) (logb_near q1 (fl_near hu hu1 q1)) (logb_near hE' hEE)
    (logb_near m0 (fl_near hu hu1 m0)) (logb_near n0 (fl_near hu hu1 n0)) (hX l0 hl0) (hX l1 hl1) m3 n3 hS
  refine ⟨v, hv, within_close h1 (by positivity) ?_ (by positivity) hw⟩
  norm_num at h1 hu1 ⊢
  linarith

/-- C192 for the shipped tables: at every floating-point energy strictly between two neighbouring rows of the file, the computed cross
section is the exact interpolated value up to a relative error of `5e-12` - except directly below an absorption edge. -/
theorem C192_shipped (hu : Rounding u fl) (hu0 : 0 ≤ u) (hu1 : u ≤ 1 / 10 ^ 15) (hm : Monotone fl) (hlg : LogApprox δ lg)
    (hpw : PowApprox δ pw) (h0 : 0 ≤ δ) (h1 : δ ≤ 1 / 10 ^ 15) {Z : ℕ} (hZ : Z ∈ List.range' 1 92) (pre post : List Line) (l0 l1 : Line)
    (h : xrmacLines Z = pre ++ l0 :: l1 :: post) {E : ℝ} (hE : fl E = E)
    (hE0 : (l0.energy.value : ℝ) < E) (hE1 : E < (l1.energy.value : ℝ))
    (hedge : lg E < lg (fl (l1.energy.value : ℝ)) ∨ ∀ l' ∈ post, l'.energy.value ≠ l1.energy.value) :
    ∃ v w, xrmacCallR fl lg pw (storedRows fl (xrmacLines Z)) E = .ok (.fin v) ∧ HasValue (tableOf Z) E w ∧
      |v - w| ≤ 5e-12 * w := by
  have hl0 : l0 ∈ xrmacLines Z := by simp [h]
  have q0 : (0 : ℝ) < l0.energy.value := Rat.cast_pos.2 ((shipped_good hZ).pos l0 hl0).1
  have hEp : 0 < E := q0.trans hE0
  obtain ⟨v, hv, he⟩ := shipped_law hu hu0 hu1 hm hlg hpw h0 h1 hZ pre post l0 l1 h (E := E) (E' := E)
    (Rat.cast_lt.1 (hE0.trans hE1)) (by rw [← hE]; exact hm hE0.le) (by rw [← hE]; exact hm hE1.le) hEp (by simp; positivity) hedge
  have hval : HasValue (tableOf Z) E _ := C49_power_law (y0 := (l0.mu.value : ℝ)) (y1 := (l1.mu.value : ℝ)) (tableOf_pos hZ) (tableOf_sorted hZ)
    (pre.map fun l => ((l.energy.value : ℝ), (l.mu.value : ℝ)))
    (post.map fun l => ((l.energy.value : ℝ), (l.mu.value : ℝ))) (by simp [tableOf, h]) hE0 hE1
  refine ⟨v, _, hv, hval, he.trans ?_⟩
  obtain ⟨w, hw, hw0⟩ := value_pos (tableOf_pos hZ) hEp.le
  have hw' := Fl.fin.inj (Except.ok.inj (hw.symm.trans hval))
  rw [hw'] at hw0
  norm_num at hw0 ⊢
  linarith

/-- values at almost equal energies -/
theorem steep_near {E1 E2 v1 v2 : ℝ} (hE : 0 < E1) (h1 : 0 < v1) (h2 : 0 < v2) (hn : E2 ≤ (1 + 2 / 10 ^ 15) * E1)
    (h : v2 * E1 ^ 100 < v1 * E2 ^ 100 ∧ v1 * E1 ^ 100 < v2 * E2 ^ 100) (h12 : E1 < E2) :
    |v1 - v2| ≤ 3e-13 * v1 ∧ |v1 - v2| ≤ 3e-13 * v2 := by
  have hc : (1 + 2 / 10 ^ 15 : ℝ) ^ 100 ≤ 1 + 3e-13 := by norm_num
  have hp : E2 ^ 100 ≤ (1 + 3e-13) * E1 ^ 100 := by
    calc E2 ^ 100 ≤ ((1 + 2 / 10 ^ 15) * E1) ^ 100 := pow_le_pow_left₀ (hE.trans h12).le hn 100
      _ = (1 + 2 / 10 ^ 15) ^ 100 * E1 ^ 100 := mul_pow _ _ _
      _ ≤ (1 + 3e-13) * E1 ^ 100 := mul_le_mul_of_nonneg_right hc (pow_pos hE 100).le
  have hq : 0 < E1 ^ 100 := pow_pos hE 100
  generalize E1 ^ 100 = P at *
  generalize E2 ^ 100 = Q at *
  have k1 : v2 < (1 + 3e-13) * v1 := by
    have := mul_le_mul_of_nonneg_left hp h1.le
    have : v2 * P < (1 + 3e-13) * v1 * P := by linarith [h.1]
    exact lt_of_mul_lt_mul_right this hq.le
  have k2 : v1 < (1 + 3e-13) * v2 := by
    have := mul_le_mul_of_nonneg_left hp h2.le
    have : v1 * P < (1 + 3e-13) * v2 * P := by linarith [h.2]
    exact lt_of_mul_lt_mul_right this hq.le
  clear hc hp
  norm_num [abs_le] at k1 k2 ⊢
  refine ⟨⟨?_, ?_⟩, ?_, ?_⟩ <;> linarith

/-- rows above the last edge are steep in both directions by less than the power 100 -/
theorem shipped_steep_above {Z : ℕ} (hZ : Z ∈ List.range' 1 92) :
    (tableOf Z).IsChain fun p q => q.1 ≤ 0.1158 ∨ (p.1 < q.1 ∧ q.2 * p.1 ^ 100 < p.2 * q.1 ^ 100 ∧ p.2 * p.1 ^ 100 < q.2 * q.1 ^ 100) := by
  rw [List.isChain_iff_forall_rel_of_append_cons_cons]
  intro p q pre post h
  have hp := (tableOf_pos hZ).2 p (by simp [h])
  have hq := (tableOf_pos hZ).2 q (by simp [h])
  by_cases hA : q.1 ≤ 0.1158
  · exact .inl hA
  have hle : p.1 ≤ q.1 := by
    have := tableOf_sorted hZ
    rw [SortedTable, h, List.pairwise_append] at this
    exact (List.pairwise_cons.1 this.2.1).1 q (by simp)
  have hlt : p.1 < q.1 := by
    refine lt_of_le_of_ne hle fun he => hA ?_
    have := shipped_last hZ (E := q.1) ⟨pre, p, [], q, post, by simp [h], he, rfl⟩
    norm_num at this ⊢
    linarith
  refine .inr ⟨hlt, ?_⟩
  have hst := shipped_steep hZ
  have hc : (tableOf Z).IsChain fun p q : ℝ × ℝ => p.1 = q.1 ∨ (q.2 * p.1 < p.2 * (p.1 + 100 * (q.1 - p.1)) ∧
      p.2 * p.1 < q.2 * (p.1 + 100 * (q.1 - p.1))) := by
    refine (List.isChain_map _).2 (List.IsChain.imp (fun a b hab => ?_) hst)
    exact hab.imp (fun e => by simp only [e]) fun e => by
      simp only
      exact_mod_cast e
  obtain ⟨s1, s2⟩ := (List.isChain_iff_forall_rel_of_append_cons_cons.1 hc h).resolve_left hlt.ne
  have b : p.1 ^ 100 * (p.1 + 100 * (q.1 - p.1)) ≤ p.1 * q.1 ^ 100 := by
    have := one_add_mul_sub_le_pow (a := q.1 / p.1) (by have := div_pos hq.1 hp.1; linarith) 100
    rw [div_pow] at this
    have h2 := mul_le_mul_of_nonneg_left this (mul_pos (pow_pos hp.1 100) hp.1).le
    have e1 : p.1 ^ 100 * p.1 * (q.1 ^ 100 / p.1 ^ 100) = p.1 * q.1 ^ 100 := by
      have := (pow_pos hp.1 100).ne'
      field_simp
    have e2 : p.1 ^ 100 * p.1 * (1 + ((100 : ℕ) : ℝ) * (q.1 / p.1 - 1)) = p.1 ^ 100 * (p.1 + 100 * (q.1 - p.1)) := by
      have := hp.1.ne'
      push_cast
      rw [mul_assoc]
      congr 1
      field_simp
    rwa [e1, e2] at h2
  have key : ∀ y z, 0 < y → z * p.1 < y * (p.1 + 100 * (q.1 - p.1)) → z * p.1 ^ 100 < y * q.1 ^ 100 := by
    intro y z hy hz
    have hP := pow_pos hp.1 100
    generalize p.1 ^ 100 = P at *
    generalize q.1 ^ 100 = Q at *
    have k1 := mul_lt_mul_of_pos_left hz hP
    have k2 := mul_le_mul_of_nonneg_left b hy.le
    have : z * P * p.1 < y * Q * p.1 := by linarith
    exact lt_of_mul_lt_mul_right this hp.1.le
  exact ⟨key _ _ hp.2 s1, key _ _ hq.2 s2⟩

/-- C192 above the absorption edges: between 0.116 and 19 MeV the computed cross section of every element is the exact interpolated value up
to a relative error of `5e-12`. -/
theorem C192_above {mu : ℝ} (hu : Rounding u fl) (hu0 : 0 ≤ u) (hu1 : u ≤ 1 / 10 ^ 15) (hm : Monotone fl) (hlg : LogApprox δ lg)
    (hpw : PowApprox δ pw) (h0 : 0 ≤ δ) (h1 : δ ≤ 1 / 10 ^ 15) :
    ∃ st, importXrmac shippedNist.render shippedDensities.render xrmacText mu = .ok st ∧
      ∀ Z ∈ List.range' 1 92, ∃ (g : StoredXrmac) (f : ℝ → ℝ), dictGet (symbolOf Z) st.perGram = .ok g ∧
        (∀ E, 0 ≤ E → g.call E = .ok (.fin (f E)) ∧ 0 < f E) ∧ ContinuousOn f (Icc 0.116 19) ∧ StrictAntiOn f (Icc 0.116 4) ∧
        ∀ E ∈ Icc (0.116 : ℝ) 19, ∃ v, xrmacCallR fl lg pw (storedRows fl (xrmacLines Z)) E = .ok (.fin v) ∧
          |v - f E| ≤ 5e-12 * f E := by
  obtain ⟨st, i1, i⟩ := stored_power (mu := mu)
  refine ⟨st, i1, fun Z hZ => ?_⟩
  obtain ⟨g, f, i2, i3, i4, -⟩ := i Z hZ
  have hp := tableOf_pos hZ
  have hs := tableOf_sorted hZ
  have hval : ∀ E, 0 ≤ E → HasValue (tableOf Z) E (f E) := fun E hE => (i3 E hE).2
  have hpos : ∀ E, 0 ≤ E → 0 < f E := fun E hE => by
    obtain ⟨w, hw, hw0⟩ := value_pos hp hE
    rwa [Fl.fin.inj (Except.ok.inj (hw.symm.trans (hval E hE)))] at hw0
  have hlast := fun {E : ℝ} h => shipped_last hZ (E := E) h
  obtain ⟨r1, r2, -, ⟨a1, ha1, ha2⟩, ⟨b1, hb1, hb2⟩⟩ := shipped_rows hZ
  refine ⟨g, f, i2, fun E hE => ⟨(i3 E hE).1, hpos E hE⟩, fun E hE => ?_, fun x hx y hy hxy => ?_, fun E hE => ?_⟩
  · refine (i4 E (by norm_num at hE; linarith [hE.1]) fun he => ?_).continuousWithinAt
    have := hlast he
    have := hE.1
    norm_num at *
    linarith
  · have hA : (0.115606 : ℝ) ≤ x := by
      have := hx.1
      norm_num at this ⊢
      linarith
    have hy4 := hy.2
    have hx0 : 0 ≤ x := by norm_num at hA; linarith
    have hy0 : 0 ≤ y := hx0.trans hxy.le
    by_cases hZ15 : Z ≤ 15
    · refine C166_decreasing hp hs (r1 hZ15) ⟨a1, ha1, ?_⟩ ⟨b1, hb1, ?_⟩ ?_ hxy ?_ (hval x hx0) (hval y hy0)
      · rw [ha2]; norm_num
      · rw [hb2]
      · norm_num at hA ⊢; linarith
      · linarith
    · refine C166_decreasing hp hs (r2 (not_le.1 hZ15)) ⟨a1, ha1, ?_⟩ ⟨b1, hb1, ?_⟩ hA hxy hy4 (hval x hx0) (hval y hy0)
      · rw [ha2]; norm_num
      · rw [hb2]; norm_num
  · have hEl : (0.116 : ℝ) ≤ E := hE.1
    have hEu : E ≤ 19 := hE.2
    norm_num at hEl
    have near := fun {x : ℝ} (hx : 0 < x) => abs_le.1 (fl_near hu hu1 hx)
    have hg := shipped_good hZ
    -- the neighbouring stored rows
    have hhead : ∃ l, (xrmacLines Z).head? = some l ∧ fl (l.energy.value : ℝ) ≤ E := by
      have := hg.first
      rw [Option.map_eq_some_iff] at this
      obtain ⟨l, hl, he⟩ := this
      refine ⟨l, hl, ?_⟩
      rw [he]
      have := (near (x := ((1 / 1000 : ℚ) : ℝ)) (by norm_num)).2
      norm_num at this ⊢
      linarith
    have hlastE : ∃ l ∈ xrmacLines Z, E < fl (l.energy.value : ℝ) := by
      have := hg.last
      rw [Option.map_eq_some_iff] at this
      obtain ⟨l, hl, he⟩ := this
      refine ⟨l, List.mem_of_getLast? hl, ?_⟩
      rw [he]
      have := (near (x := ((20 : ℚ) : ℝ)) (by norm_num)).1
      norm_num at this ⊢
      linarith
    obtain ⟨pre, l0, l1, post, h, hE0, hE1⟩ := exists_rows (fun l : Line => fl (l.energy.value : ℝ)) _ hhead hlastE
    have hlt : l0.energy.value < l1.energy.value := by
      by_contra hn
      have := hm ((Rat.cast_le (K := ℝ)).2 (not_lt.1 hn))
      linarith
    have hltR : (l0.energy.value : ℝ) < l1.energy.value := Rat.cast_lt.2 hlt
    have q0 : (0 : ℝ) < l0.energy.value := Rat.cast_pos.2 (hg.pos l0 (by simp [h])).1
    have q1 : (0 : ℝ) < l1.energy.value := q0.trans hltR
    have n0 := near q0
    have n1 := near q1
    have hF1 : (0.1158 : ℝ) ≤ l1.energy.value := by
      norm_num at n1 ⊢
      linarith [n1.2]
    have htab : tableOf Z = (pre.map fun l => ((l.energy.value : ℝ), (l.mu.value : ℝ))) ++ ((l0.energy.value : ℝ), (l0.mu.value : ℝ)) ::
        ((l1.energy.value : ℝ), (l1.mu.value : ℝ)) :: post.map fun l => ((l.energy.value : ℝ), (l.mu.value : ℝ)) := by
      simp [tableOf, h]
    have hpost : ∀ l' ∈ post, l'.energy.value ≠ l1.energy.value := by
      intro l' hl' he
      obtain ⟨mid, post', hmid⟩ := List.append_of_mem hl'
      have := hlast (E := l1.energy.value) ⟨(pre ++ [l0]).map fun l => ((l.energy.value : ℝ), (l.mu.value : ℝ)),
        ((l1.energy.value : ℝ), (l1.mu.value : ℝ)), mid.map fun l => ((l.energy.value : ℝ), (l.mu.value : ℝ)),
        ((l'.energy.value : ℝ), (l'.mu.value : ℝ)), post'.map fun l => ((l.energy.value : ℝ), (l.mu.value : ℝ)),
        by simp [tableOf, h, hmid], rfl, by simp [he]⟩
      norm_num at this hF1
      linarith
    -- the exact value between the rows
    obtain ⟨f', c1, -, -, -, -, c2⟩ := C98_continuity hp hs
    have hf' : ∀ x, 0 ≤ x → f x = f' x := fun x hx => Fl.fin.inj (Except.ok.inj ((hval x hx).symm.trans (c1 x hx)))
    have z0 : (0 : ℝ) < l0.mu.value := Rat.cast_pos.2 (hg.pos l0 (by simp [h])).2
    have z1 : (0 : ℝ) < l1.mu.value := Rat.cast_pos.2 (hg.pos l1 (by simp [h])).2
    have hsort := hs
    rw [SortedTable, htab, List.pairwise_append] at hsort
    have hsort := (List.pairwise_cons.1 hsort.2.1).2
    have hafter : ∀ r ∈ post.map fun l => ((l.energy.value : ℝ), (l.mu.value : ℝ)), (l1.energy.value : ℝ) < r.1 := by
      intro r hr
      refine lt_of_le_of_ne ((List.pairwise_cons.1 hsort).1 r hr) ?_
      obtain ⟨l', hl', rfl⟩ := List.mem_map.1 hr
      intro e
      exact hpost l' hl' (Rat.cast_injective e.symm)
    have hlaw : ∀ x, (l0.energy.value : ℝ) ≤ x → x ≤ l1.energy.value → f x = (l0.mu.value : ℝ) * (x / l0.energy.value) ^
        (Real.log (l1.mu.value / l0.mu.value : ℝ) / Real.log (l1.energy.value / l0.energy.value : ℝ)) := by
      intro x hx0 hx1
      rcases hx0.eq_or_lt with rfl | hx0'
      · rw [hf' _ q0.le, c2 _ _ _ _ htab, div_self q0.ne', Real.one_rpow, mul_one]
        intro r hr
        rcases List.mem_cons.1 hr with rfl | hr
        · exact hltR
        · exact hltR.trans (hafter r hr)
      rcases hx1.eq_or_lt with rfl | hx1'
      · rw [hf' _ q1.le, c2 (_ ++ [_]) _ _ _ (by rw [htab, List.append_assoc]; rfl) hafter]
        have hl : Real.log (l1.energy.value / l0.energy.value : ℝ) ≠ 0 := (Real.log_pos ((one_lt_div q0).2 hltR)).ne'
        rw [Real.rpow_def_of_pos (div_pos q1 q0), mul_div_cancel₀ _ hl, Real.exp_log (div_pos z1 z0)]
        field_simp
      · exact Fl.fin.inj (Except.ok.inj ((hval x (q0.le.trans hx0)).symm.trans (C49_power_law hp hs _ _ htab hx0' hx1')))
    have hhd : ∃ r, (tableOf Z).head? = some r ∧ r.1 ≤ (0.1158 : ℝ) := ⟨a1, ha1, by rw [ha2]; norm_num⟩
    have hnear : ∀ x y, (0.1158 : ℝ) ≤ x → x < y → y ≤ 20 → y ≤ (1 + 2 / 10 ^ 15) * x →
        |f x - f y| ≤ 3e-13 * f x ∧ |f x - f y| ≤ 3e-13 * f y := by
      intro x y hx hxy hy hyx
      have hx0 : 0 < x := lt_of_lt_of_le (by norm_num) hx
      exact steep_near hx0 (hpos x hx0.le) (hpos y (hx0.trans hxy).le) hyx
        (steep_values hp hs (shipped_steep_above hZ) hhd ⟨b1, hb1, by rw [hb2]⟩ hx hxy hy (hval x hx0.le) (hval y (hx0.trans hxy).le)) hxy
    obtain ⟨E', e0, e1, e2, e3⟩ : ∃ E', (l0.energy.value : ℝ) ≤ E' ∧ E' ≤ l1.energy.value ∧ |E - E'| ≤ 1 / 10 ^ 15 * E' ∧
        |f E - f E'| ≤ 3e-13 * f E := by
      rcases lt_or_ge E (l0.energy.value : ℝ) with c | c
      · refine ⟨l0.energy.value, le_rfl, hltR.le, ?_, (hnear _ _ ?_ c ?_ ?_).1⟩
        · rw [abs_le]; constructor <;> linarith [n0.1]
        all_goals
          norm_num at n0 ⊢
          linarith [n0.1]
      rcases le_or_gt E (l1.energy.value : ℝ) with d | d
      · have := hpos E (by linarith)
        exact ⟨E, c, d, by simpa using (by linarith : 0 ≤ E), by rw [sub_self, abs_zero]; positivity⟩
      · refine ⟨l1.energy.value, hltR.le, le_rfl, ?_, ?_⟩
        · rw [abs_le]; constructor <;> linarith [n1.2]
        · rw [abs_sub_comm]
          refine (hnear _ _ hF1 d ?_ ?_).2
          all_goals
            norm_num at n1 ⊢
            linarith [n1.2]
    have hE'0 : 0 < E' := q0.trans_le e0
    obtain ⟨v, hv, hvE⟩ := shipped_law hu hu0 hu1 hm hlg hpw h0 h1 hZ pre post l0 l1 h hlt hE0 hE1.le hE'0 e2 (.inr hpost)
    rw [← hlaw E' e0 e1] at hvE
    refine ⟨v, hv, ?_⟩
    have hfE := hpos E (by linarith)
    have t := abs_add_le (v - f E') (f E' - f E)
    rw [abs_sub_comm (f E') (f E)] at t
    have e4 := (abs_le.1 e3).1
    norm_num at hvE e3 e4 t ⊢
    linarith

/-- C192 for sums: the table of an element is a constituent of the sums of C190, with the relative error `5e-12` of its values and the bound
of its equidistant grid. -/
theorem C192_resolves {mu : ℝ} (hu : Rounding u fl) (hu0 : 0 ≤ u) (hu1 : u ≤ 1 / 10 ^ 15) (hm : Monotone fl) (hlg : LogApprox δ lg)
    (hpw : PowApprox δ pw) (h0 : 0 ≤ δ) (h1 : δ ≤ 1 / 10 ^ 15) :
    ∃ st, importXrmac shippedNist.render shippedDensities.render xrmacText mu = .ok st ∧
      ∀ Z ∈ List.range' 1 92, ∃ (g : StoredXrmac) (f : ℝ → ℝ), dictGet (symbolOf Z) st.perGram = .ok g ∧
        (∀ E, 0 ≤ E → g.call E = .ok (.fin (f E)) ∧ 0 < f E) ∧
        ∀ a b (m : ℕ), 0.116 ≤ a → a ≤ b → b ≤ 4 → fl a = a → fl b = b → 4 * u * (m + 1) ≤ 1 →
          Resolves fl a b m 5e-12 (((b - a) / (m + 1) + 18 * u * b) * (f a - f b)) f
            (.leaf (Leaf.computed (xrmacCallR fl lg pw (storedRows fl (xrmacLines Z))) (constGridR fl))) := by
  obtain ⟨st, i1, i⟩ := C192_above (mu := mu) hu hu0 hu1 hm hlg hpw h0 h1
  refine ⟨st, i1, fun Z hZ => ?_⟩
  obtain ⟨g, f, i2, i3, i4, i5, i6⟩ := i Z hZ
  refine ⟨g, f, i2, i3, fun a b m ha hab hb fa fb hm' => ?_⟩
  have a0 : 0 ≤ a := le_trans (by norm_num) ha
  have hsub : Icc a b ⊆ Icc 0.116 19 := Icc_subset_Icc ha (hb.trans (by norm_num))
  have h := C190_nonresonant hu0 hu hm hab fa fb m hm' (σ := f) (V := fun E => -f E) (ε := 5e-12)
    (fun E hE => i6 E (hsub hE)) (fun s hs t ht hst => ?_) (i4.mono hsub) fun E hE => (i3 E (a0.trans hE.1)).2.le
  · have e : max |a| |b| = b := by rw [abs_of_nonneg a0, abs_of_nonneg (a0.trans hab), max_eq_right hab]
    rw [e] at h
    convert h using 2
    ring
  · rcases hst.eq_or_lt with rfl | hlt
    · simp
    · have := i5 ⟨ha.trans hs.1, hs.2.trans hb⟩ ⟨ha.trans ht.1, ht.2.trans hb⟩ hlt
      rw [abs_of_neg (by linarith)]
      linarith
end

/-- The conditions on a table are met by three rows on a power law that falls with the square of the energy, between the first and the
second one. -/
example : ∃ v w, xrmacCallR KN.rn (fun x => KN.rn (Real.logb 10 x)) (fun y => KN.rn ((10 : ℝ) ^ y)) [(1, 100), (10, 1), (100, 0.01)] 2 =
    .ok (.fin v) ∧ HasValue [(1, 100), (10, 1), (100, 0.01)] 2 w ∧
      Within (1 / 2 ^ 53) (1 / 2 ^ 53 * 2 + 2 * (1 / 2 ^ 53 * 1) * 2 + 24 * (1 / 2 ^ 53) * 2) w w v := by
  have l1 : |Real.logb 10 10| ≤ 1 := by simp
  have l100 : |Real.logb 10 100| ≤ 2 := by
    have := logb_small (x := 100) (n := 2) (by norm_num) (by norm_num)
    simpa using this
  refine C192_table KN.rn_rounding (by norm_num) (by norm_num) rn_log rn_pow (by norm_num) (by norm_num) ⟨by simp, ?_⟩ ?_ [] [(100, 0.01)]
    rfl (by norm_num) (by norm_num) ?_ (.inr ?_) (by simp) l1 l100 (by simp) ?_
  · intro r hr
    simp only [List.mem_cons, List.not_mem_nil, or_false] at hr
    rcases hr with rfl | rfl | rfl <;> norm_num
  · simp only [SortedTable]
    norm_num
  · exact lg_lt (x := 1) (y := 10) (ρ := 1) (B := 2) rn_log (by norm_num) (by norm_num) one_pos (by norm_num)
      (by simp) (by simp) (by norm_num)
  · intro r hr
    obtain rfl := List.mem_singleton.1 hr
    exact (lg_lt (x := 10) (y := 100) (ρ := 1) (B := 2) rn_log (by norm_num) (by norm_num) one_pos (by norm_num)
      (by simp) l100 (by norm_num)).ne'
  · have e : (1 / 100 : ℝ) = (10 ^ 2)⁻¹ := by norm_num
    rw [e, Real.log_inv, Real.log_pow, abs_neg, abs_of_nonneg (by have := Real.log_nonneg (x := 10) (by norm_num); positivity)]
    norm_num

/-- Lead between 1 and 4 MeV with correctly rounded functions and 1001 points. -/
example : ∃ (f : ℝ → ℝ) (B : ℝ), 0 < f 1 ∧ B ≤ 0.0031 * f 1 ∧ Resolves KN.rn 1 4 999 5e-12 B f
    (.leaf (Leaf.computed (xrmacCallR KN.rn (fun x => KN.rn (Real.logb 10 x)) (fun y => KN.rn ((10 : ℝ) ^ y))
      (storedRows KN.rn (xrmacLines 82))) (constGridR KN.rn))) := by
  have e1 : KN.rn 1 = 1 := by exact_mod_cast KN.rn_exact (n := 1) (by norm_num)
  have e4 : KN.rn 4 = 4 := by exact_mod_cast KN.rn_exact (n := 4) (by norm_num)
  obtain ⟨st, -, h⟩ := C192_resolves (mu := 1) KN.rn_rounding (by norm_num) (by norm_num) KN.rn_monotone rn_log rn_pow (by norm_num) (by norm_num)
  obtain ⟨g, f, -, h1, h2⟩ := h 82 (by decide)
  refine ⟨f, _, (h1 1 (by norm_num)).2, ?_, h2 1 4 999 (by norm_num) (by norm_num) le_rfl e1 e4 (by norm_num)⟩
  have p1 := (h1 1 (by norm_num)).2
  have p4 := (h1 4 (by norm_num)).2
  have : ((4 - 1 : ℝ) / ((999 : ℕ) + 1) + 18 * (1 / 2 ^ 53) * 4) ≤ 0.0031 := by norm_num
  have h0 : (0 : ℝ) ≤ ((4 - 1 : ℝ) / ((999 : ℕ) + 1) + 18 * (1 / 2 ^ 53) * 4) := by positivity
  calc _ ≤ ((4 - 1 : ℝ) / ((999 : ℕ) + 1) + 18 * (1 / 2 ^ 53) * 4) * f 1 := mul_le_mul_of_nonneg_left (by linarith) h0
    _ ≤ _ := mul_le_mul_of_nonneg_right this p1.le

/-- Hydrogen at the floating-point energy 5/4096 MeV, between the first two rows of its file. -/
example : ∃ v w, xrmacCallR KN.rn (fun x => KN.rn (Real.logb 10 x)) (fun y => KN.rn ((10 : ℝ) ^ y)) (storedRows KN.rn (xrmacLines 1))
    (5 / 4096) = .ok (.fin v) ∧ HasValue (tableOf 1) (5 / 4096) w ∧ |v - w| ≤ 5e-12 * w := by
  have hE : KN.rn (5 / 4096) = 5 / 4096 := by
    have := KN.rn_scale ((5 : ℤ) : ℝ) (-12)
    rw [KN.rn_exact (by norm_num)] at this
    norm_num at this ⊢
    exact this
  have hrows : ∃ l0 l1 post, xrmacLines 1 = [] ++ l0 :: l1 :: post ∧ l0.energy.value = 1 / 1000 ∧ l1.energy.value = 3 / 2000 ∧
      ∀ l' ∈ post, l'.energy.value ≠ l1.energy.value := by
    refine ⟨_, _, _, rfl, ?_, ?_, ?_⟩ <;> decide +kernel
  obtain ⟨l0, l1, post, h, h0, h1, hp⟩ := hrows
  refine C192_shipped KN.rn_rounding (by norm_num) (by norm_num) KN.rn_monotone rn_log rn_pow (by norm_num) (by norm_num) (by decide) [] post
    l0 l1 h hE ?_ ?_ (.inr hp)
  · rw [h0]; norm_num
  · rw [h1]; norm_num

end Ries
