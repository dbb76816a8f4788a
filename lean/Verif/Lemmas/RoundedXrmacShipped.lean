import Verif.Lemmas.RoundedXrmac
import Verif.Lemmas.ShippedXrmacSep
import Verif.Lemmas.RnEval
import Verif.Lemmas.RnIdem
import Mathlib.Analysis.Complex.ExponentialBounds

/-! # Lemmas on the rounded interpolation of the shipped tables -/

namespace Ries

/-- without rounding the function is the one of `Model/Xrmac` -/
theorem xrmacCallR_exact {t : Table} (ht : PosTable t) {E : ℝ} (hE : 0 < E) :
    xrmacCallR id (Real.logb 10) (fun y => (10 : ℝ) ^ y) t E = xrmacCall t E := by
  have hl : ∀ x0 a x1 b x, lerpR id x0 (.fin a) x1 (.fin b) x = lerp x0 (.fin a) x1 (.fin b) x := fun _ _ _ _ _ => rfl
  have hi : ∀ (s : List (ℝ × Fl)) (x : ℝ), (∀ p ∈ s, ∃ v, p.2 = .fin v) → npInterpR id s x = npInterp s x := by
    intro s x
    induction s with
    | nil => intro _; rfl
    | cons p s ih =>
      obtain ⟨x0, y0⟩ := p
      cases s with
      | nil => intro _; rfl
      | cons q s =>
        obtain ⟨x1, y1⟩ := q
        intro hf
        obtain ⟨v, rfl⟩ : ∃ v, y0 = .fin v := hf (x0, y0) (by simp)
        obtain ⟨w, rfl⟩ : ∃ v, y1 = .fin v := hf (x1, y1) (by simp)
        simp only [npInterpR, npInterp, hl]
        rw [ih fun p hp => hf p (by simp [hp])]
  obtain ⟨a, b, ha, hb, hc⟩ := xrmacCall_eq ht hE
  rw [hc]
  simp only [xrmacCallR, ha, hb]
  have e : (t.map fun r => (Real.logb 10 r.1, Fl.fin (Real.logb 10 r.2))) = nodes t := rfl
  rw [e]
  have hi' : interp1dR id (nodes t) (.fin (Real.logb 10 a.2)) (.fin (Real.logb 10 b.2)) (Real.logb 10 E) =
      interp1d (nodes t) (.fin (Real.logb 10 a.2)) (.fin (Real.logb 10 b.2)) (Real.logb 10 E) := by
    have hf : ∀ p ∈ sortNodes (nodes t), ∃ v, p.2 = .fin v := by
      intro p hp
      obtain ⟨r, -, rfl⟩ := List.mem_map.1 (mem_sortNodes.1 hp)
      exact ⟨_, rfl⟩
    simp only [interp1dR, interp1d, hi _ _ hf]
    cases (sortNodes (nodes t)).head? <;> cases (sortNodes (nodes t)).getLast? <;> rfl
  rw [hi']
  cases interp1d (nodes t) (.fin (Real.logb 10 a.2)) (.fin (Real.logb 10 b.2)) (Real.logb 10 E) <;> rfl

/-- computed logarithms of well separated numbers are different -/
theorem lg_lt {δ ρ B : ℝ} {lg : ℝ → ℝ} (hlg : LogApprox δ lg) (h0 : 0 ≤ δ) {x y : ℝ} (hx : 0 < x) (hρ : 0 < ρ)
    (hxy : x * (1 + ρ) ≤ y) (bx : |Real.logb 10 x| ≤ B) (by' : |Real.logb 10 y| ≤ B)
    (hB : 18 * δ * B * (1 + ρ) < ρ) : lg x < lg y := by
  have hy : 0 < y := lt_of_lt_of_le (by positivity) hxy
  have e1 := abs_le.1 (hlg.err x hx)
  have e2 := abs_le.1 (hlg.err y hy)
  have m1 : δ * |Real.logb 10 x| ≤ δ * B := by gcongr
  have m2 : δ * |Real.logb 10 y| ≤ δ * B := by gcongr
  have l1 : Real.logb 10 (x * (1 + ρ)) ≤ Real.logb 10 y := logb_le (by positivity) hxy
  have l2 : Real.logb 10 (x * (1 + ρ)) = Real.logb 10 x + Real.logb 10 (1 + ρ) :=
    Real.logb_mul hx.ne' (by positivity)
  have l10 : Real.log 10 ≤ 9 := by
    have := Real.log_le_sub_one_of_pos (show (0 : ℝ) < 10 by norm_num)
    linarith
  have l10p : 0 < Real.log 10 := Real.log_pos (by norm_num)
  have l3 : ρ / (1 + ρ) ≤ Real.log (1 + ρ) := by
    have := Real.one_sub_inv_le_log_of_pos (show 0 < 1 + ρ by linarith)
    calc ρ / (1 + ρ) = 1 - (1 + ρ)⁻¹ := by field_simp; ring
      _ ≤ _ := this
  have l4 : 2 * δ * B < Real.logb 10 (1 + ρ) := by
    rw [Real.logb, lt_div_iff₀ l10p]
    have hBn : 0 ≤ B := (abs_nonneg _).trans bx
    have : 2 * δ * B * Real.log 10 ≤ 2 * δ * B * 9 := by gcongr
    have h5 : 18 * δ * B < ρ / (1 + ρ) := by rwa [lt_div_iff₀ (by positivity)]
    linarith
  linarith

/-! ## Correctly rounded functions -/

/-- correctly rounded logarithm and power -/
theorem rn_log : LogApprox (1 / 2 ^ 53) fun x => KN.rn (Real.logb 10 x) :=
  ⟨fun _ _ hx hxy => KN.rn_monotone (logb_le hx hxy), fun _ _ => KN.rn_rounding _⟩

theorem rn_pow : PowApprox (1 / 2 ^ 53) fun y => KN.rn ((10 : ℝ) ^ y) := fun y => by
  have := KN.rn_rounding ((10 : ℝ) ^ y)
  rwa [abs_of_pos (show (0 : ℝ) < 10 ^ y by positivity)] at this

/-- a table with an absorption edge at energy 100 -/
def edgeTable : Table := [(50, 1), (100, 1), (100, 8), (200, 8)]

theorem edgeTable_pos : PosTable edgeTable := by
  refine ⟨by simp [edgeTable], fun r hr => ?_⟩
  simp only [edgeTable, List.mem_cons, List.not_mem_nil, or_false] at hr
  rcases hr with rfl | rfl | rfl | rfl <;> norm_num

theorem edgeTable_sorted : SortedTable edgeTable := by
  simp only [SortedTable, edgeTable]
  norm_num

theorem log_ten_ge : 2 ≤ Real.log 10 := by
  rw [Real.le_log_iff_exp_le (by norm_num)]
  have h := Real.exp_one_lt_d9
  have h0 := Real.exp_pos 1
  have : Real.exp 2 = Real.exp 1 * Real.exp 1 := by rw [← Real.exp_add]; norm_num
  rw [this]
  nlinarith

theorem rn_log_hundred : KN.rn (Real.logb 10 100) = 2 := by
  have : Real.logb 10 100 = 2 := by
    rw [show (100 : ℝ) = 10 ^ (2 : ℝ) by norm_num, Real.logb_rpow (by norm_num) (by norm_num)]
  rw [this]
  exact_mod_cast KN.rn_exact (n := 2) (by norm_num)

/-- the largest floating-point number below 100 has the same computed logarithm as 100 -/
theorem rn_log_below : KN.rn (Real.logb 10 (100 - 1 / 2 ^ 46)) = 2 := by
  have l100 : Real.logb 10 100 = 2 := by
    rw [show (100 : ℝ) = 10 ^ (2 : ℝ) by norm_num, Real.logb_rpow (by norm_num) (by norm_num)]
  have hlo : 2 - 1 / 2 ^ 53 < Real.logb 10 (100 - 1 / 2 ^ 46) := by
    have hx : (0 : ℝ) < 1 - 1 / 2 ^ 46 / 100 := by norm_num
    have e : (100 : ℝ) - 1 / 2 ^ 46 = 100 * (1 - 1 / 2 ^ 46 / 100) := by ring
    rw [e, Real.logb_mul (by norm_num) hx.ne', l100]
    have h1 := Real.one_sub_inv_le_log_of_pos hx
    have h2 := log_ten_ge
    have h3 : -(1 / 2 ^ 53) < Real.logb 10 (1 - 1 / 2 ^ 46 / 100) := by
      rw [Real.logb, lt_div_iff₀ (by linarith)]
      have : (-(3 / 2 ^ 54) : ℝ) < 1 - (1 - 1 / 2 ^ 46 / 100 : ℝ)⁻¹ := by norm_num
      have : (-(1 / 2 ^ 53) : ℝ) * Real.log 10 ≤ -(1 / 2 ^ 53) * 2 := by nlinarith
      have : (-(1 / 2 ^ 53) * 2 : ℝ) < -(3 / 2 ^ 54) := by norm_num
      linarith
    linarith
  have hhi : Real.logb 10 (100 - 1 / 2 ^ 46) ≤ 2 := by
    refine (logb_le (by norm_num) ?_).trans l100.le
    norm_num
  generalize Real.logb 10 (100 - 1 / 2 ^ 46) = x at hlo hhi
  have h1 := KN.rn_scale (x / 2) 1
  have h2 : KN.rn (x / 2) = 1 := KN.rn_near_one (by norm_num at hlo ⊢; linarith) (by linarith)
  rw [h2] at h1
  norm_num at h1
  exact h1

/-! ## The shipped tables -/

theorem log_ten_le : Real.log 10 ≤ 3 := by
  rw [Real.log_le_iff_le_exp (by norm_num)]
  have h := Real.exp_one_gt_d9
  have : Real.exp 3 = Real.exp 1 * Real.exp 1 * Real.exp 1 := by rw [← Real.exp_add, ← Real.exp_add]; norm_num
  rw [this]
  have h1 : (2.7 : ℝ) ≤ Real.exp 1 := by norm_num at h ⊢; linarith
  have h2 : (2.7 : ℝ) * 2.7 ≤ Real.exp 1 * Real.exp 1 := by gcongr
  have h3 : (2.7 : ℝ) * 2.7 * 2.7 ≤ Real.exp 1 * Real.exp 1 * Real.exp 1 := by gcongr
  norm_num at h3
  linarith

theorem pow_small {η : ℝ} (h0 : 0 ≤ η) (h1 : η ≤ 1 / 100) : 1 - 3 * η ≤ (10 : ℝ) ^ (-η) ∧ (10 : ℝ) ^ η ≤ 1 + 4 * η := by
  have hl := log_ten_le
  have l0 : 0 ≤ Real.log 10 := Real.log_nonneg (by norm_num)
  have hx : Real.log 10 * η ≤ 3 * η := by gcongr
  have e : Real.exp (Real.log 10 * -η) = (10 : ℝ) ^ (-η) := (Real.rpow_def_of_pos (by norm_num) _).symm
  have k := Real.add_one_le_exp (Real.log 10 * -η)
  rw [e] at k
  refine ⟨by linarith, ?_⟩
  have hp : (0 : ℝ) < (10 : ℝ) ^ η := by positivity
  have hinv : (10 : ℝ) ^ (-η) * (10 : ℝ) ^ η = 1 := by rw [← Real.rpow_add (by norm_num)]; simp
  have h3 : (1 - 3 * η) * (10 : ℝ) ^ η ≤ 1 := by
    rw [← hinv]
    gcongr
    linarith
  have h4 : 1 ≤ (1 - 3 * η) * (1 + 4 * η) := by nlinarith
  have h5 : 0 < 1 - 3 * η := by linarith
  exact le_of_mul_le_mul_left (h3.trans h4) h5

section
variable {u δ : ℝ} {fl lg pw : ℝ → ℝ} {ls : List Line}

theorem fl_bounds (hu : Rounding u fl) {x : ℝ} (hx : 0 < x) : (1 - u) * x ≤ fl x ∧ fl x ≤ (1 + u) * x := by
  have := abs_le.1 (hu x)
  rw [abs_of_pos hx] at this
  constructor <;> linarith

theorem storedRows_pos (hg : GoodTable ls) (hu : Rounding u fl) (hu1 : u ≤ 1 / 10 ^ 15) : PosTable (storedRows fl ls) := by
  refine ⟨by simpa [storedRows] using hg.ne_nil, fun r hr => ?_⟩
  obtain ⟨l, hl, rfl⟩ := List.mem_map.1 hr
  have h1 : (0 : ℝ) < l.energy.value := Rat.cast_pos.2 (hg.pos l hl).1
  have h2 : (0 : ℝ) < l.mu.value := Rat.cast_pos.2 (hg.pos l hl).2
  have h3 : (0 : ℝ) < 1 - u := by norm_num at hu1; linarith
  exact ⟨(mul_pos h3 h1).trans_le (fl_bounds hu h1).1, (mul_pos h3 h2).trans_le (fl_bounds hu h2).1⟩

theorem storedRows_sorted (hg : GoodTable ls) (hm : Monotone fl) : SortedTable (storedRows fl ls) := by
  unfold SortedTable storedRows
  rw [List.pairwise_map]
  exact hg.sorted.imp fun h => hm (Rat.cast_le.2 h)

theorem logb_small {x : ℝ} {n : ℕ} (h0 : 1 / 10 ^ n ≤ x) (h1 : x ≤ 10 ^ n) : |Real.logb 10 x| ≤ n := by
  have hx : 0 < x := lt_of_lt_of_le (by positivity) h0
  rw [abs_le]
  constructor
  · rw [Real.le_logb_iff_rpow_le (by norm_num) hx, Real.rpow_neg (by norm_num), Real.rpow_natCast]
    simpa using h0
  · rw [Real.logb_le_iff_le_rpow (by norm_num) hx, Real.rpow_natCast]
    exact h1

theorem lg_energy (hs : SepTable ls) (hu : Rounding u fl) (hu0 : 0 ≤ u) (hu1 : u ≤ 1 / 10 ^ 15)
    (hlg : LogApprox δ lg) (h0 : 0 ≤ δ) (h1 : δ ≤ 1 / 10 ^ 15) {a b : Line} (ha : a ∈ ls) (hb : b ∈ ls)
    (hab : a.energy.value * (1 + 1 / 100000) ≤ b.energy.value) :
    lg (fl (a.energy.value : ℝ)) < lg (fl (b.energy.value : ℝ)) := by
  have ra := hs.range a ha
  have rb := hs.range b hb
  have ra0 : (1 / 1000 : ℝ) ≤ a.energy.value := by
    have := (Rat.cast_le (K := ℝ)).2 ra.1
    push_cast at this
    exact this
  have ra1 : (a.energy.value : ℝ) ≤ 20 := by
    have := (Rat.cast_le (K := ℝ)).2 ra.2
    push_cast at this
    exact this
  have rb0 : (1 / 1000 : ℝ) ≤ b.energy.value := by
    have := (Rat.cast_le (K := ℝ)).2 rb.1
    push_cast at this
    exact this
  have rb1 : (b.energy.value : ℝ) ≤ 20 := by
    have := (Rat.cast_le (K := ℝ)).2 rb.2
    push_cast at this
    exact this
  have hab' : (a.energy.value : ℝ) * (1 + 1 / 100000) ≤ b.energy.value := by
    have := (Rat.cast_le (K := ℝ)).2 hab
    push_cast at this
    exact this
  generalize (a.energy.value : ℝ) = x at *
  generalize (b.energy.value : ℝ) = y at *
  have fx := fl_bounds hu (x := x) (by linarith)
  have fy := fl_bounds hu (x := y) (by linarith)
  have ux : u * x ≤ 1 / 10 ^ 15 * x := by gcongr
  have uy : u * y ≤ 1 / 10 ^ 15 * y := by gcongr
  have sm : ∀ z, 1 / 1000 ≤ z → z ≤ 20 → u * z ≤ 1 / 10 ^ 15 * z → (1 - u) * z ≤ fl z → fl z ≤ (1 + u) * z →
      |Real.logb 10 (fl z)| ≤ (4 : ℕ) := by
    intro z z0 z1 uz f0 f1
    have uz0 : 0 ≤ u * z := mul_nonneg hu0 (by linarith)
    refine logb_small ?_ ?_ <;> norm_num at uz ⊢ <;> linarith
  have bx := sm x ra0 ra1 ux fx.1 fx.2
  have b_y := sm y rb0 rb1 uy fy.1 fy.2
  refine lg_lt (ρ := 1 / 10 ^ 6) (B := (4 : ℕ)) hlg h0 ?_ (by norm_num) ?_ bx b_y ?_
  · norm_num at ux; linarith
  · norm_num at ux uy ⊢
    linarith
  · norm_num at h1 ⊢
    linarith

/-- the order of the computed logarithms in a stored table -/
theorem lg_ne (hs : SepTable ls) (hu : Rounding u fl) (hu0 : 0 ≤ u) (hu1 : u ≤ 1 / 10 ^ 15)
    (hlg : LogApprox δ lg) (h0 : 0 ≤ δ) (h1 : δ ≤ 1 / 10 ^ 15) {pre post : List Line} {l : Line}
    (h : ls = pre ++ l :: post) (hpost : ∀ l' ∈ post, l'.energy.value ≠ l.energy.value) :
    ∀ l' ∈ post, lg (fl (l.energy.value : ℝ)) < lg (fl (l'.energy.value : ℝ)) := by
  intro l' hl'
  have hp := hs.sep
  rw [h, List.pairwise_append] at hp
  have := (List.pairwise_cons.1 hp.2.1).1 l' hl'
  exact lg_energy hs hu hu0 hu1 hlg h0 h1 (by simp [h]) (by simp [h, hl'])
    (this.resolve_left fun e => hpost l' hl' e.symm)

theorem size_bounds (hs : SepTable ls) (hu : Rounding u fl) (hu0 : 0 ≤ u) (hu1 : u ≤ 1 / 10 ^ 15) {l : Line} (hl : l ∈ ls) :
    0 < (l.mu.value : ℝ) ∧ (1 - 1 / 10 ^ 15) * (l.mu.value : ℝ) ≤ fl (l.mu.value : ℝ) ∧
      fl (l.mu.value : ℝ) ≤ (1 + 1 / 10 ^ 15) * (l.mu.value : ℝ) ∧ |Real.logb 10 (fl (l.mu.value : ℝ))| ≤ 6 := by
  have r := hs.size l hl
  have r0 : (1 / 1000 : ℝ) ≤ l.mu.value := by
    have := (Rat.cast_le (K := ℝ)).2 r.1
    push_cast at this
    exact this
  have r1 : (l.mu.value : ℝ) ≤ 100000 := by
    have := (Rat.cast_le (K := ℝ)).2 r.2
    push_cast at this
    exact this
  generalize (l.mu.value : ℝ) = x at *
  have fx := fl_bounds hu (x := x) (by linarith)
  have ux : u * x ≤ 1 / 10 ^ 15 * x := by gcongr
  have uz0 : 0 ≤ u * x := mul_nonneg hu0 (by linarith)
  refine ⟨by linarith, by linarith, by linarith, ?_⟩
  have : |Real.logb 10 (fl x)| ≤ (6 : ℕ) := by
    refine logb_small ?_ ?_ <;> norm_num at ux ⊢ <;> linarith
  simpa using this

/-- the errors of a shipped table are below `10^(-12)` -/
theorem within_small {η lo hi v lo' hi' : ℝ} (h0 : 0 ≤ δ) (h1 : δ ≤ 1 / 10 ^ 15) (e0 : 0 ≤ η) (e1 : η ≤ 102 / 10 ^ 15)
    (hlo : 0 < lo') (hhi : 0 < hi') (b0 : (1 - 1 / 10 ^ 15) * lo' ≤ lo) (b1 : hi ≤ (1 + 1 / 10 ^ 15) * hi')
    (h : Within δ η lo hi v) : (1 - 1e-12) * lo' ≤ v ∧ v ≤ (1 + 1e-12) * hi' := by
  obtain ⟨p0, p1⟩ := pow_small e0 (by norm_num at e1 ⊢; linarith)
  constructor
  · refine le_trans ?_ h.1
    have k1 : (1 - 1 / 10 ^ 15 : ℝ) ≤ 1 - δ := by linarith
    have k2 : (1 - 306 / 10 ^ 15 : ℝ) ≤ (10 : ℝ) ^ (-η) := by linarith
    have k3 := mul_le_mul (mul_le_mul k1 k2 (by norm_num) (by norm_num at h1; linarith)) b0 (by norm_num; exact hlo.le)
      (mul_nonneg (by norm_num at h1; linarith) (by positivity))
    refine le_trans ?_ k3
    norm_num
    linarith
  · refine h.2.trans ?_
    have k1 : 1 + δ ≤ (1 + 1 / 10 ^ 15 : ℝ) := by linarith
    have k2 : (10 : ℝ) ^ η ≤ (1 + 408 / 10 ^ 15 : ℝ) := by linarith
    have k3 : (1 + δ) * (10 : ℝ) ^ η ≤ (1 + 1 / 10 ^ 15) * (1 + 408 / 10 ^ 15) :=
      mul_le_mul k1 k2 (by positivity) (by norm_num)
    have k4 : (1 + δ) * (10 : ℝ) ^ η * hi ≤ (1 + δ) * (10 : ℝ) ^ η * ((1 + 1 / 10 ^ 15) * hi') := by gcongr
    have k5 : (1 + δ) * (10 : ℝ) ^ η * ((1 + 1 / 10 ^ 15) * hi') ≤
        (1 + 1 / 10 ^ 15) * (1 + 408 / 10 ^ 15) * ((1 + 1 / 10 ^ 15) * hi') := by gcongr
    refine (k4.trans k5).trans ?_
    norm_num
    linarith

end

end Ries
