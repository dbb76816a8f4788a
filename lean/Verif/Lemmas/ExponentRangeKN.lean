import Verif.Lemmas.ExponentRange

/-! # Magnitudes of intermediate results in the total Klein-Nishina cross section -/

namespace Ries.KN

variable {u : ℝ} {a : Arith}

/-- the operations of `a`, without rounding if the exact result is out of range -/
noncomputable def Arith.complete (a : Arith) : Arith :=
  open Classical in
  { fl := fun x => if Normal x then a.fl x else x
    lg := fun x => if Normal (Real.log x) then a.lg x else Real.log x
    cb := fun x => if Normal (x ^ (-3 : ℤ)) then a.cb x else x ^ (-3 : ℤ) }

theorem Arith.complete_accurate (hA : a.AccurateInRange u) (hu : 0 ≤ u) : a.complete.Accurate u where
  fl x := by
    by_cases h : Normal x
    · simpa [Arith.complete, h] using hA.fl x h
    · simp [Arith.complete, h]; positivity
  lg x hx := by
    by_cases h : Normal (Real.log x)
    · simpa [Arith.complete, h] using hA.lg x hx h
    · simp [Arith.complete, h]; positivity
  cb x hx := by
    by_cases h : Normal (x ^ (-3 : ℤ))
    · simpa only [Arith.complete, h, if_true] using hA.cb x hx h
    · simp only [Arith.complete, h, if_false, sub_self, abs_zero]; positivity

/-- `a` as an arithmetic of the other kind -/
noncomputable def Arith.toR (a : Arith) : RArith := ⟨a.fl, fun x => x ^ 2, Real.exp, Real.sqrt⟩

theorem Arith.toR_accurate (hA : a.AccurateInRange u) (hu : 0 ≤ u) : a.toR.AccurateInRange u where
  fl := hA.fl
  sq x _ := by simp [Arith.toR]; positivity
  exp x _ := by simp [Arith.toR]; positivity
  sqrt x _ _ := by simp [Arith.toR]; positivity

section
variable (hA : a.AccurateInRange u) (hu : 0 ≤ u) (hu1 : u ≤ 1 / 100)
include hA hu hu1

theorem Arith.same_fl {c d : ℤ} {x y : ℝ} (h : Same c d x y) (hc : -1022 ≤ c) (hd : d ≤ 1023) :
    Same (c - 1) (d + 1) (a.fl x) (a.complete.fl y) := h.fl (Arith.toR_accurate hA hu) hu1 hc hd

omit hu hu1 in
/-- a result is a multiple of a power of two -/
theorem Arith.same_grid {c d : ℤ} {x y : ℝ} (h : Same c d x y) (hc : -1022 ≤ c) (hd : d ≤ 1023) :
    ∃ n : ℤ, a.complete.fl y = n * 2 ^ (c - 52) := by
  have hn := h.2.normal hc hd
  have e : a.complete.fl y = a.fl y := if_pos hn
  rw [e]
  rcases h.2 with h0 | ⟨h1, -⟩
  · have := hA.fl y hn
    rw [h0] at this ⊢
    refine ⟨0, ?_⟩
    simpa using this
  · exact hA.grid y hn c h1

omit hu in
theorem Arith.same_cb {c d : ℤ} {x y : ℝ} (h : Same c d x y) (hy : 0 < y) (hc : -1022 ≤ -(d + d + d)) (hd : -(c + c + c) ≤ 1023) :
    Same (-(d + d + d) - 1) (-(c + c + c) + 1) (a.cb x) (a.complete.cb y) := by
  obtain ⟨rfl, h⟩ := h
  have hm : Mag (-(d + d + d)) (-(c + c + c)) (x ^ (-3 : ℤ)) := by
    have h3 := (Mag.of_bounds (a := 0) (b := 0) (x := 1) (by norm_num) (by norm_num)).div ((h.mul h).mul h)
    have e : 1 / (x * x * x) = x ^ (-3 : ℤ) := by
      rw [zpow_neg, one_div]
      congr 1
      norm_cast
      ring
    rw [e] at h3
    exact h3.mono (by omega) (by omega)
  have hn := hm.normal hc hd
  have e : a.complete.cb x = a.cb x := if_pos hn
  rw [e]
  refine ⟨rfl, hm.close ((hA.cb x hy hn).trans (mul_le_mul_of_nonneg_right (by linarith) (abs_nonneg _)))⟩

omit hu in
theorem Arith.same_lg {c d : ℤ} {x y : ℝ} (h : x = y) (hy : 0 < y) (hm : Mag c d (Real.log y)) (hc : -1022 ≤ c) (hd : d ≤ 1023) :
    Same (c - 1) (d + 1) (a.lg x) (a.complete.lg y) := by
  obtain rfl := h
  have hn := hm.normal hc hd
  have e : a.complete.lg x = a.lg x := if_pos hn
  rw [e]
  refine ⟨rfl, hm.close ((hA.lg x hy hn).trans (mul_le_mul_of_nonneg_right (by linarith) (abs_nonneg _)))⟩

end

theorem Mag_of_grid {c d : ℤ} {x : ℝ} (h : ∃ n : ℤ, x = n * 2 ^ c) (hx : |x| ≤ 2 ^ d) : Mag c d x := by
  obtain ⟨n, rfl⟩ := h
  rcases eq_or_ne n 0 with rfl | hn
  · exact Or.inl (by simp)
  · refine Or.inr ⟨?_, hx⟩
    rw [abs_mul, abs_of_pos (by positivity : (0 : ℝ) < 2 ^ c)]
    have : (1 : ℝ) ≤ |(n : ℝ)| := by exact_mod_cast Int.one_le_abs hn
    nlinarith [show (0 : ℝ) < 2 ^ c by positivity]

theorem grid_mono {c c' : ℤ} (hc : c' ≤ c) {x : ℝ} (h : ∃ n : ℤ, x = n * 2 ^ c) : ∃ n : ℤ, x = n * 2 ^ c' := by
  obtain ⟨n, rfl⟩ := h
  obtain ⟨m, rfl⟩ := Int.le.dest hc
  refine ⟨n * 2 ^ m, ?_⟩
  rw [zpow_add₀ (by norm_num), zpow_natCast]
  push_cast
  ring

theorem grid_add {c : ℤ} {x y : ℝ} (h : ∃ n : ℤ, x = n * 2 ^ c) (h' : ∃ n : ℤ, y = n * 2 ^ c) : ∃ n : ℤ, x + y = n * 2 ^ c := by
  obtain ⟨n, rfl⟩ := h
  obtain ⟨m, rfl⟩ := h'
  exact ⟨n + m, by push_cast; ring⟩

theorem grid_sub_two {c : ℤ} (hc : c ≤ 0) {x : ℝ} (h : ∃ n : ℤ, x = n * 2 ^ c) : ∃ n : ℤ, x - 2 = n * 2 ^ c := by
  have h2 : ∃ n : ℤ, (-2 : ℝ) = n * 2 ^ (0 : ℤ) := ⟨-2, by norm_num⟩
  simpa [sub_eq_add_neg] using grid_add h (grid_mono hc h2)

theorem Mag.le {c d : ℤ} {x : ℝ} (h : Mag c d x) : |x| ≤ 2 ^ d := by
  rcases h with rfl | h
  · rw [abs_zero]; positivity
  · exact h.2

section
variable (hA : a.AccurateInRange u) (hu : 0 ≤ u) (hu1 : u ≤ 1 / 100)
include hA hu hu1

theorem scaleR_same {k : PhysConst} (hk : k.InRange) {s : KN} (hZ : Mag (-20) 20 s.Z) (hm : Mag (-20) 20 s.mc2) :
    Same (-150) 150 (scaleR a k s) (scaleR a.complete k s) := by
  have h1 := Arith.same_fl hA hu hu1 (Same.refl hk.alpha.sq) (by norm_num) (by norm_num)
  have h2 := Arith.same_fl hA hu hu1 ((Same.refl hZ).mul h1) (by norm_num) (by norm_num)
  have h3 := Arith.same_fl hA hu hu1 (Same.refl hk.hbarc.sq) (by norm_num) (by norm_num)
  have h4 := Arith.same_fl hA hu hu1 (h2.mul h3) (by norm_num) (by norm_num)
  have h5 := Arith.same_fl hA hu hu1 ((Same.refl hm).mul (.refl hm)) (by norm_num) (by norm_num)
  have h6 := Arith.same_fl hA hu hu1 (h4.div h5) (by norm_num) (by norm_num)
  exact h6.mono (by norm_num) (by norm_num)

theorem termA_same {x : ℝ} (hx : Mag (-20) 60 x) (h0 : 0 ≤ x) : Same (-220) 300 (termA a x) (termA a.complete x) ∧
    ∃ n : ℤ, termA a.complete x = n * 2 ^ (-400 : ℤ) := by
  have hB := Arith.complete_accurate hA hu
  have hpos : ∀ {x}, 0 ≤ x → 0 ≤ a.complete.fl x := fun hx => hB.fl.nonneg (by linarith) hx
  have s2 : Same 1 1 (2 : ℝ) 2 := Same.num 1 1 (by norm_num) (by norm_num)
  have s8 : Same 3 3 (8 : ℝ) 8 := Same.num 3 3 (by norm_num) (by norm_num)
  have h1 := Arith.same_fl hA hu hu1 (s2.mul (.refl hx)) (by norm_num) (by norm_num)
  have h2 := Arith.same_fl hA hu hu1 ((Same.refl hx).one_add h0 (by norm_num)) (by norm_num) (by norm_num)
  have h3 := Arith.same_fl hA hu hu1 ((Same.refl hx).mul h2) (by norm_num) (by norm_num)
  have h4 := Arith.same_fl hA hu hu1 ((s8.add (.refl hx) (by norm_num) h0).mono (a' := -20) (b' := 61) (by norm_num) (by norm_num))
    (by norm_num) (by norm_num)
  have h5 := Arith.same_fl hA hu hu1 (h3.mul h4) (by norm_num) (by norm_num)
  have h6 := Arith.same_fl hA hu hu1 ((s2.add h5 (by norm_num) (hpos (mul_nonneg (hpos (mul_nonneg h0 (hpos (by linarith)))) (hpos (by linarith))))).mono
    (a' := -60) (b' := 190) (by norm_num) (by norm_num)) (by norm_num) (by norm_num)
  have h7 := Arith.same_fl hA hu hu1 (h1.mul h6) (by norm_num) (by norm_num)
  have h8 := Arith.same_fl hA hu hu1 (h1.one_add (hpos (by linarith)) (by norm_num)) (by norm_num) (by norm_num)
  have h9 := Arith.same_fl hA hu hu1 (h8.mul h8) (by norm_num) (by norm_num)
  rw [← pow_two, ← pow_two] at h9
  have h10 := Arith.same_fl hA hu hu1 (h7.div h9) (by norm_num) (by norm_num)
  exact ⟨h10.mono (by norm_num) (by norm_num), grid_mono (by norm_num) (Arith.same_grid hA (h7.div h9) (by norm_num) (by norm_num))⟩

theorem termB_same (hu2 : u ≤ 1 / 2 ^ 30) {x : ℝ} (hx : Mag (-20) 60 x) (hlow : 1 / 2 ^ 20 ≤ x) (hg : ∃ n : ℤ, x = n * 2 ^ (-80 : ℤ)) :
    Same (-300) 300 (termB a x) (termB a.complete x) ∧ ∃ n : ℤ, termB a.complete x = n * 2 ^ (-400 : ℤ) := by
  have hB := Arith.complete_accurate hA hu
  have h0 : 0 < x := lt_of_lt_of_le (by norm_num) hlow
  have s2 : Same 1 1 (2 : ℝ) 2 := Same.num 1 1 (by norm_num) (by norm_num)
  have hpos : ∀ {x}, 0 ≤ x → 0 ≤ a.complete.fl x := fun hx => hB.fl.nonneg (by linarith) hx
  have bound : ∀ {y : ℝ} {d : ℤ}, 1 ≤ d → |y| ≤ 2 ^ d → |y - 2| ≤ 2 ^ (d + 1) := by
    intro y d hd hy
    have h2 : (2 : ℝ) ≤ 2 ^ d := by
      have := zpow_le_zpow_right₀ (by norm_num : (1 : ℝ) ≤ 2) hd
      rwa [zpow_one] at this
    have := abs_sub y 2
    rw [abs_of_pos (by norm_num : (0 : ℝ) < 2)] at this
    rw [zpow_add₀ (by norm_num), zpow_one]
    linarith
  have m1 : Mag (-80) 61 (x - 2) := Mag_of_grid (grid_sub_two (by norm_num) hg) (bound (by norm_num) (Mag.le hx))
  have h1 := Arith.same_fl hA hu hu1 (Same.refl m1) (by norm_num) (by norm_num)
  have m2 := h1.mul (Same.refl hx)
  have h2 := Arith.same_fl hA hu hu1 m2 (by norm_num) (by norm_num)
  have g2 := Arith.same_grid hA m2 (by norm_num) (by norm_num)
  have m3 : Same (-153) 124 (a.fl (a.fl (x - 2) * x) - 2) (a.complete.fl (a.complete.fl (x - 2) * x) - 2) :=
    ⟨by rw [h2.1], Mag_of_grid (grid_mono (by norm_num) (grid_sub_two (by norm_num) g2)) ((bound (by norm_num) (Mag.le h2.2)).trans
      (zpow_le_zpow_right₀ (by norm_num) (by norm_num)))⟩
  have h3 := Arith.same_fl hA hu hu1 m3 (by norm_num) (by norm_num)
  have h4 := Arith.same_fl hA hu hu1 (s2.mul (.refl hx)) (by norm_num) (by norm_num)
  have h5 := Arith.same_fl hA hu hu1 (h4.one_add (hpos (by linarith)) (by norm_num)) (by norm_num) (by norm_num)
  set y := a.complete.fl (1 + a.complete.fl (2 * x)) with hy
  have hy1 : 1 + 1 / 2 ^ 20 ≤ y := by
    have e1 := hB.fl (2 * x)
    rw [abs_of_pos (by linarith : 0 < 2 * x)] at e1
    have e2 := hB.fl (1 + a.complete.fl (2 * x))
    rw [abs_of_pos (by linarith [hpos (by linarith : 0 ≤ 2 * x)] : 0 < 1 + a.complete.fl (2 * x))] at e2
    have e1' := (_root_.abs_le.1 e1).1
    have e2' := (_root_.abs_le.1 e2).1
    rw [← hy] at e2'
    set z := a.complete.fl (2 * x)
    have f1 : (1 - u) * (2 * (1 / 2 ^ 20)) ≤ z := by
      have : (1 - u) * (2 * (1 / 2 ^ 20)) ≤ (1 - u) * (2 * x) := mul_le_mul_of_nonneg_left (by linarith) (by linarith)
      linarith
    have f2 : (1 - 1 / 2 ^ 30) * (2 * (1 / 2 ^ 20)) ≤ z := by
      refine le_trans (mul_le_mul_of_nonneg_right (by linarith) (by norm_num)) f1
    have f3 : (1 - 1 / 2 ^ 30) * (1 + z) ≤ (1 - u) * (1 + z) :=
      mul_le_mul_of_nonneg_right (by linarith) (by linarith [hpos (by linarith : 0 ≤ 2 * x)])
    norm_num at f2 f3 ⊢
    linarith
  have hy0 : 0 < y := by
    have : (0 : ℝ) < 1 / 2 ^ 20 := by norm_num
    linarith
  have ml : Mag (-21) 64 (Real.log y) := by
    refine .of_bounds ?_ ?_
    · have l1 := Real.one_sub_inv_le_log_of_pos hy0
      have l2 : y⁻¹ ≤ (1 + 1 / 2 ^ 20)⁻¹ := inv_anti₀ (by norm_num) hy1
      norm_num at l1 l2 ⊢
      linarith
    · refine (Real.log_le_self hy0.le).trans ?_
      have := Mag.le h5.2
      rw [abs_of_pos hy0] at this
      exact this.trans (zpow_le_zpow_right₀ (by norm_num) (by norm_num))
  have h6 := Arith.same_lg hA hu1 h5.1 hy0 ml (by norm_num) (by norm_num)
  have h7 := Arith.same_fl hA hu hu1 (h3.mul h6) (by norm_num) (by norm_num)
  exact ⟨h7.mono (by norm_num) (by norm_num), grid_mono (by norm_num) (Arith.same_grid hA (h3.mul h6) (by norm_num) (by norm_num))⟩

theorem totalR_same (hu2 : u ≤ 1 / 2 ^ 30) {k : PhysConst} (hk : k.InRange) {s : KN} (hZ : Mag (-20) 20 s.Z) (hm : Mag (-20) 20 s.mc2)
    {E : ℝ} (h1 : 1 / 2 ^ 19 ≤ E / s.mc2) (h2 : E / s.mc2 ≤ 2 ^ 59) : totalR a k s E = totalR a.complete k s E := by
  have hB := Arith.complete_accurate hA hu
  have hq : Mag (-19) 59 (E / s.mc2) := Mag.of_bounds (by rw [zpow_neg, ← one_div]; exact_mod_cast h1) (by exact_mod_cast h2)
  have hx := Arith.same_fl hA hu hu1 (.refl hq) (by norm_num) (by norm_num)
  have hg := grid_mono (by norm_num : (-80 : ℤ) ≤ _) (Arith.same_grid hA (.refl hq) (by norm_num) (by norm_num))
  unfold totalR
  rw [hx.1]
  simp only
  have hx' := hx.2.mono (a' := -20) (b' := 60) (by norm_num) (by norm_num)
  have hpos : 0 < E / s.mc2 := lt_of_lt_of_le (by norm_num) h1
  have hlow : 1 / 2 ^ 20 ≤ a.complete.fl (E / s.mc2) := by
    have e := hB.fl (E / s.mc2)
    rw [abs_of_pos hpos] at e
    have e' := (_root_.abs_le.1 e).1
    have : 1 / 2 * (E / s.mc2) ≤ (1 - u) * (E / s.mc2) := mul_le_mul_of_nonneg_right (by linarith) hpos.le
    norm_num at h1 this ⊢
    linarith
  generalize a.complete.fl (E / s.mc2) = x at *
  have hx0 : 0 < x := lt_of_lt_of_le (by norm_num) hlow
  obtain ⟨ha1, ha2⟩ := termA_same hA hu hu1 hx' hx0.le
  obtain ⟨hb1, hb2⟩ := termB_same hA hu hu1 hu2 hx' hlow hg
  have hsum : Same (-400) 301 (termA a x + termB a x) (termA a.complete x + termB a.complete x) := by
    refine ⟨by rw [ha1.1, hb1.1], Mag_of_grid (grid_add ha2 hb2) ((abs_add_le _ _).trans ?_)⟩
    have := add_le_add (Mag.le ha1.2) (Mag.le hb1.2)
    refine this.trans (le_of_eq ?_)
    rw [show (301 : ℤ) = 300 + 1 by norm_num, zpow_add₀ (by norm_num), zpow_one]
    ring
  have h3 := Arith.same_fl hA hu hu1 hsum (by norm_num) (by norm_num)
  have h4 := Arith.same_fl hA hu hu1 Same.pi (by norm_num) (by norm_num)
  have h5 := Arith.same_fl hA hu hu1 (h4.mul (scaleR_same hA hu hu1 hk hZ hm)) (by norm_num) (by norm_num)
  have h6 := Arith.same_cb hA hu1 (.refl hx') hx0 (by norm_num) (by norm_num)
  have h7 := Arith.same_fl hA hu hu1 (h5.mul h6) (by norm_num) (by norm_num)
  exact (Arith.same_fl hA hu hu1 (h7.mul h3) (by norm_num) (by norm_num)).1

end

end Ries.KN
