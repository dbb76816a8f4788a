import Verif.Spec.RoundedKN
import Verif.Lemmas.KleinNishina
import Mathlib.Analysis.SpecialFunctions.Log.Deriv

/-!
# Rounding errors of the total Compton cross section
-/

open Real

namespace Ries.KN

/-! ## The rounding `rn` -/

theorem rn_rounding : Rounding (1 / 2 ^ 53) rn := by
  intro x
  rcases eq_or_ne x 0 with rfl | hx
  · simp [rn]
  have hx' : 0 < |x| := abs_pos.2 hx
  set e : ℝ := 2 ^ (52 - Int.log 2 |x|) with he
  have hepos : 0 < e := by positivity
  have hlog : ((2 : ℕ) : ℝ) ^ Int.log 2 |x| ≤ |x| := Int.zpow_log_le_self (by norm_num) hx'
  have hb : (2 : ℝ) ^ 52 ≤ |x| * e := by
    have e1 : (2 : ℝ) ^ (52 : ℕ) = 2 ^ Int.log 2 |x| * e := by
      rw [he, ← zpow_add₀ (by norm_num : (2 : ℝ) ≠ 0)]
      have : Int.log 2 |x| + (52 - Int.log 2 |x|) = ((52 : ℕ) : ℤ) := by push_cast; ring
      rw [this, zpow_natCast]
    rw [e1]
    push_cast at hlog
    exact mul_le_mul_of_nonneg_right hlog hepos.le
  have hr := abs_sub_round (x * e)
  have e2 : rn x - x = -((x * e - round (x * e)) / e) := by
    unfold rn; rw [← he]; field_simp; ring
  rw [e2, abs_neg, abs_div, abs_of_pos hepos, div_le_iff₀ hepos]
  have : (1 : ℝ) / 2 ^ 53 * |x| * e = (|x| * e) / 2 ^ 52 / 2 := by ring
  rw [this]
  have : (1 : ℝ) ≤ |x| * e / 2 ^ 52 := by rw [le_div_iff₀ (by positivity)]; linarith
  linarith

theorem rn_near (x : ℝ) (h1 : 1 ≤ x) (h2 : x ≤ 2) : ∃ n : ℤ, rn x = n / 2 ^ 52 ∧ |rn x - x| ≤ 1 / 2 ^ 53 := by
  rcases h2.lt_or_eq with h2 | rfl
  · have hl : Int.log 2 |x| = 0 := by
      rw [abs_of_pos (by linarith)]
      have a : (0 : ℤ) ≤ Int.log 2 x := (Int.zpow_le_iff_le_log (by norm_num) (by linarith)).1 (by simpa using h1)
      have b : Int.log 2 x < 1 := (Int.lt_zpow_iff_log_lt (by norm_num) (by linarith)).1 (by simpa using h2)
      omega
    have e : rn x = round (x * 2 ^ 52) / 2 ^ 52 := by
      unfold rn; rw [hl, sub_zero, zpow_ofNat]
    refine ⟨round (x * 2 ^ 52), e, ?_⟩
    have hr := abs_sub_round (x * 2 ^ 52)
    have e2 : rn x - x = -((x * 2 ^ 52 - round (x * 2 ^ 52)) / 2 ^ 52) := by
      rw [e]; field_simp; ring
    rw [e2, abs_neg, abs_div, abs_of_pos (by positivity : (0 : ℝ) < 2 ^ 52), div_le_iff₀ (by positivity)]
    have : (1 : ℝ) / 2 ^ 53 * 2 ^ 52 = 1 / 2 := by norm_num
    rw [this]; exact hr
  · have hl : Int.log 2 |(2 : ℝ)| = 1 := by
      have := Int.log_zpow (R := ℝ) (b := 2) (by norm_num) 1
      simpa using this
    have e : rn 2 = 2 := by
      unfold rn; rw [hl]
      have : (2 : ℝ) * 2 ^ ((52 : ℤ) - 1) = ((2 ^ 52 : ℤ) : ℝ) := by norm_num
      rw [this, round_intCast]; norm_num
    exact ⟨2 ^ 53, by rw [e]; norm_num, by rw [e]; norm_num⟩

theorem rnArith_double : rnArith.Double where
  fl := rn_rounding
  lg x _ := (rn_rounding _).trans (mul_le_mul_of_nonneg_right (by norm_num) (abs_nonneg _))
  cb x _ := (rn_rounding _).trans (mul_le_mul_of_nonneg_right (by norm_num) (abs_nonneg _))
  near := rn_near

theorem exactArith_accurate {u : ℝ} (hu : 0 ≤ u) : exactArith.Accurate u where
  fl x := by simp [exactArith]; positivity
  lg x _ := by simp [exactArith]; positivity
  cb x _ := by simp [exactArith]; positivity

/-! ## Relative errors -/

/-- `a` differs from `b` by `n` relative errors of size `u`. -/
def Rel (u : ℝ) (n : ℕ) (a b : ℝ) : Prop := ∃ θ, (1 - u) ^ n ≤ θ ∧ θ ≤ ((1 - u) ^ n)⁻¹ ∧ a = b * θ

variable {u : ℝ} {a b c d : ℝ} {n m : ℕ}

theorem Rel.refl (hu : 0 ≤ u) (hu1 : u < 1) (a : ℝ) : Rel u n a a := by
  have h1 : (1 - u) ^ n ≤ 1 := pow_le_one₀ (by linarith) (by linarith)
  have h0 : 0 < (1 - u) ^ n := pow_pos (by linarith) n
  exact ⟨1, h1, (one_le_inv₀ h0).2 h1, by ring⟩

theorem Rel.mul (hu1 : u < 1) (h : Rel u n a b) (h' : Rel u m c d) : Rel u (n + m) (a * c) (b * d) := by
  obtain ⟨θ, l, r, rfl⟩ := h
  obtain ⟨θ', l', r', rfl⟩ := h'
  have p : 0 < (1 - u) ^ n := pow_pos (by linarith) n
  have p' : 0 < (1 - u) ^ m := pow_pos (by linarith) m
  refine ⟨θ * θ', ?_, ?_, by ring⟩
  · rw [pow_add]; exact mul_le_mul l l' p'.le (p.le.trans l)
  · rw [pow_add, mul_inv]; exact mul_le_mul r r' (p'.le.trans l') (by positivity)

theorem Rel.inv (hu1 : u < 1) (h : Rel u n a b) : Rel u n a⁻¹ b⁻¹ := by
  obtain ⟨θ, l, r, rfl⟩ := h
  have p : 0 < (1 - u) ^ n := pow_pos (by linarith) n
  have q : 0 < θ := p.trans_le l
  refine ⟨θ⁻¹, ?_, ?_, by rw [mul_inv]⟩
  · rw [le_inv_comm₀ p q]; exact r
  · exact (inv_le_inv₀ q p).2 l

theorem Rel.div (hu1 : u < 1) (h : Rel u n a b) (h' : Rel u m c d) : Rel u (n + m) (a / c) (b / d) := by
  rw [div_eq_mul_inv, div_eq_mul_inv]; exact h.mul hu1 (h'.inv hu1)

theorem Rel.pow (hu1 : u < 1) (h : Rel u n a b) : ∀ j : ℕ, Rel u (j * n) (a ^ j) (b ^ j)
  | 0 => by simp [Rel]
  | j + 1 => by
    have := (Rel.pow hu1 h j).mul hu1 h
    rw [pow_succ, pow_succ, add_mul, one_mul]; exact this

theorem Rel.mono (hu : 0 ≤ u) (hu1 : u < 1) (h : Rel u n a b) (hnm : n ≤ m) : Rel u m a b := by
  obtain ⟨θ, l, r, rfl⟩ := h
  have p : 0 < (1 - u) ^ n := pow_pos (by linarith) n
  have p' : 0 < (1 - u) ^ m := pow_pos (by linarith) m
  have q : (1 - u) ^ m ≤ (1 - u) ^ n := pow_le_pow_of_le_one (by linarith) (by linarith) hnm
  exact ⟨θ, q.trans l, r.trans ((inv_le_inv₀ p p').2 q), rfl⟩

theorem Rel.add (hb : 0 ≤ b) (hd : 0 ≤ d) (h : Rel u n a b) (h' : Rel u n c d) : Rel u n (a + c) (b + d) := by
  obtain ⟨θ, l, r, rfl⟩ := h
  obtain ⟨θ', l', r', rfl⟩ := h'
  rcases (add_nonneg hb hd).eq_or_lt with h0 | hpos
  · have hb0 : b = 0 := by linarith
    have hd0 : d = 0 := by linarith
    subst hb0 hd0
    exact ⟨θ, l, r, by ring⟩
  · refine ⟨(b * θ + d * θ') / (b + d), ?_, ?_, by field_simp⟩
    · rw [le_div_iff₀ hpos]; nlinarith
    · rw [div_le_iff₀ hpos]; nlinarith

theorem Rel.round {fl : ℝ → ℝ} (hfl : Rounding u fl) (hu : 0 ≤ u) (hu1 : u < 1) (h : Rel u n a b) : Rel u (n + 1) (fl a) b := by
  have : Rel u 1 (fl a) a := by
    rcases eq_or_ne a 0 with rfl | ha
    · have := hfl 0
      simp at this
      rw [this]; exact Rel.refl hu hu1 0
    · have h1 := abs_le.1 (hfl a)
      refine ⟨fl a / a, ?_, ?_, by field_simp⟩
      · have e : fl a / a - 1 = (fl a - a) / a := by field_simp
        have : |(fl a - a) / a| ≤ u := by
          rw [abs_div, div_le_iff₀ (abs_pos.2 ha)]; exact hfl a
        rw [← e] at this
        have := (abs_le.1 this).1
        rw [pow_one]; linarith
      · have e : fl a / a - 1 = (fl a - a) / a := by field_simp
        have : |(fl a - a) / a| ≤ u := by
          rw [abs_div, div_le_iff₀ (abs_pos.2 ha)]; exact hfl a
        rw [← e] at this
        have := (abs_le.1 this).2
        rw [pow_one, inv_eq_one_div, le_div_iff₀ (by linarith)]
        nlinarith
  obtain ⟨θ, l, r, rfl⟩ := h
  obtain ⟨θ', l', r', e⟩ := this
  refine ⟨θ * θ', ?_, ?_, by rw [e]; ring⟩
  · have p : 0 < (1 - u) ^ n := pow_pos (by linarith) n
    rw [pow_succ, ← pow_one (1 - u), ← pow_mul, one_mul]
    exact mul_le_mul l l' (by rw [pow_one]; linarith) (p.le.trans l)
  · have p : 0 < (1 - u) ^ n := pow_pos (by linarith) n
    have p' : 0 < (1 - u) ^ 1 := pow_pos (by linarith) 1
    rw [pow_add, mul_inv]; exact mul_le_mul r r' (p'.le.trans l') (by positivity)

/-- absolute form of the error -/
theorem Rel.abs_le (hu : 0 ≤ u) (hn : n * u ≤ 1 / 200) (h : Rel u n a b) : |a - b| ≤ 1.01 * n * u * |b| := by
  obtain ⟨θ, l, r, rfl⟩ := h
  have hb : 1 - n * u ≤ (1 - u) ^ n := by
    rcases Nat.eq_zero_or_pos n with rfl | hn0
    · simp
    have hu' : u ≤ 1 / 200 := by
      have : (1 : ℝ) ≤ n := by exact_mod_cast hn0
      nlinarith
    have := one_add_mul_le_pow (a := -u) (by linarith) n
    have e : (1 : ℝ) + -u = 1 - u := by ring
    rw [e] at this
    linarith
  have hp : 0 < (1 - u) ^ n := by linarith
  have hi : ((1 - u) ^ n)⁻¹ ≤ 1 + 1.01 * (n * u) := by
    rw [inv_eq_one_div, div_le_iff₀ hp]
    have : 0 ≤ n * u := by positivity
    nlinarith
  have e : b * θ - b = b * (θ - 1) := by ring
  rw [e, abs_mul, mul_comm]
  refine mul_le_mul_of_nonneg_right ?_ (abs_nonneg b)
  have : 0 ≤ n * u := by positivity
  rw [abs_le]; constructor <;> nlinarith

/-! ## The two terms in the bracket -/

/-- exact first term -/
noncomputable def exA (x : ℝ) : ℝ := (2 * x * (2 + x * (1 + x) * (8 + x))) / ((1 + 2 * x) ^ 2)

variable {A : Arith} {x y : ℝ}

theorem arg_rel (hA : Rounding u A.fl) (hu : 0 ≤ u) (hu1 : u < 1) (hy : 0 < y) (hx : Rel u 1 x y) :
    Rel u 3 (A.fl (1 + A.fl (2 * x))) (1 + 2 * y) := by
  have h2 : Rel u 2 (A.fl (2 * x)) (2 * y) := by
    have := ((Rel.refl (n := 0) hu hu1 2).mul hu1 hx).round hA hu hu1
    exact this
  exact ((Rel.refl (n := 2) hu hu1 1).add (by norm_num) (by positivity) h2).round hA hu hu1

theorem termA_rel (hA : Rounding u A.fl) (hu : 0 ≤ u) (hu1 : u < 1) (hy : 0 < y) (hx : Rel u 1 x y) :
    Rel u 19 (termA A x) (exA y) := by
  have one : ∀ c : ℝ, 0 ≤ c → Rel u 2 (A.fl (c + x)) (c + y) := fun c hc =>
    ((Rel.refl (n := 1) hu hu1 c).add hc hy.le hx).round hA hu hu1
  have h2 : Rel u 2 (A.fl (2 * x)) (2 * y) := ((Rel.refl (n := 0) hu hu1 2).mul hu1 hx).round hA hu hu1
  have p1 : Rel u 4 (A.fl (x * A.fl (1 + x))) (y * (1 + y)) := (hx.mul hu1 (one 1 (by norm_num))).round hA hu hu1
  have p2 : Rel u 7 (A.fl (A.fl (x * A.fl (1 + x)) * A.fl (8 + x))) (y * (1 + y) * (8 + y)) :=
    (p1.mul hu1 (one 8 (by norm_num))).round hA hu hu1
  have p3 : Rel u 8 (A.fl (2 + A.fl (A.fl (x * A.fl (1 + x)) * A.fl (8 + x)))) (2 + y * (1 + y) * (8 + y)) :=
    ((Rel.refl (n := 7) hu hu1 2).add (by norm_num) (by positivity) p2).round hA hu hu1
  have p4 : Rel u 11 _ (2 * y * (2 + y * (1 + y) * (8 + y))) := (h2.mul hu1 p3).round hA hu hu1
  have p5 : Rel u 7 (A.fl (A.fl (1 + A.fl (2 * x)) ^ 2)) ((1 + 2 * y) ^ 2) :=
    ((arg_rel hA hu hu1 hy hx).pow hu1 2).round hA hu hu1
  have := (p4.div hu1 p5).round hA hu hu1
  exact this

theorem exA_pos (hy : 0 < y) : 0 < exA y := by unfold exA; positivity

theorem exA_le (hy : 0 < y) : exA y ≤ 4 * (1 + y) ^ 2 := by
  unfold exA
  rw [div_le_iff₀ (by positivity)]
  have : 0 ≤ y ^ 2 := by positivity
  have : 0 ≤ y ^ 3 := by positivity
  have : 0 ≤ y ^ 4 := by positivity
  nlinarith

/-- the factor of the logarithm -/
theorem factor_err (hA : Rounding u A.fl) (hu : 0 ≤ u) (hu1 : u ≤ 1e-4) (hy : 0 < y) (hx : Rel u 1 x y) :
    |A.fl (A.fl (A.fl (x - 2) * x) - 2) - ((y - 2) * y - 2)| ≤ 9 * u * (1 + y) ^ 2 := by
  have ex := hx.abs_le hu (by push_cast; linarith)
  rw [abs_of_pos hy] at ex
  push_cast at ex
  set e := x - y with he
  have hxe : x = y + e := by rw [he]; ring
  have eb := abs_le.1 ex
  -- first difference
  have h1 := hA (x - 2)
  set f := A.fl (x - 2) - (x - 2) with hf
  have hfe : A.fl (x - 2) = x - 2 + f := by rw [hf]; ring
  have fb : |f| ≤ u * (1.001 * y + 2) := by
    refine h1.trans (mul_le_mul_of_nonneg_left ?_ hu)
    rw [hxe, abs_le]; constructor <;> nlinarith
  rw [hfe]
  have h2 := hA ((x - 2 + f) * x)
  set g := A.fl ((x - 2 + f) * x) - (x - 2 + f) * x with hg
  have hge : A.fl ((x - 2 + f) * x) = (x - 2 + f) * x + g := by rw [hg]; ring
  have fb' := abs_le.1 fb
  have d1 : |x - 2 + f| ≤ 1.002 * y + 2.001 := by
    rw [hxe, abs_le]; constructor <;> nlinarith
  have d2 : |x| ≤ 1.001 * y := by
    rw [hxe, abs_le]; constructor <;> nlinarith
  have d3 : |(x - 2 + f) * x| ≤ (1.002 * y + 2.001) * (1.001 * y) := by
    rw [abs_mul]; exact mul_le_mul d1 d2 (abs_nonneg _) (by positivity)
  have gb : |g| ≤ u * ((1.002 * y + 2.001) * (1.001 * y)) := h2.trans (mul_le_mul_of_nonneg_left d3 hu)
  rw [hge]
  have h3 := hA ((x - 2 + f) * x + g - 2)
  set h := A.fl ((x - 2 + f) * x + g - 2) - ((x - 2 + f) * x + g - 2) with hh
  have hhe : A.fl ((x - 2 + f) * x + g - 2) = (x - 2 + f) * x + g - 2 + h := by rw [hh]; ring
  have d4 : |(x - 2 + f) * x + g - 2| ≤ 1.01 * ((1.002 * y + 2.001) * (1.001 * y)) + 2 := by
    have p : 0 ≤ (1.002 * y + 2.001) * (1.001 * y) := by positivity
    calc |(x - 2 + f) * x + g - 2| ≤ |(x - 2 + f) * x + g| + |(2 : ℝ)| := abs_sub _ _
      _ ≤ |(x - 2 + f) * x| + |g| + |(2 : ℝ)| := by gcongr; exact abs_add_le _ _
      _ ≤ _ := by
        rw [abs_of_pos (show (0 : ℝ) < 2 by norm_num)]
        nlinarith
  have hb : |h| ≤ u * (1.01 * ((1.002 * y + 2.001) * (1.001 * y)) + 2) := h3.trans (mul_le_mul_of_nonneg_left d4 hu)
  rw [hhe]
  have e1 : (x - 2 + f) * x + g - 2 + h - ((y - 2) * y - 2) = (y - 2) * e + e * x + f * x + g + h := by rw [hxe]; ring
  rw [e1]
  have t1 : |(y - 2) * e| ≤ (y + 2) * (1.01 * u * y) := by
    rw [abs_mul]
    refine mul_le_mul ?_ (by linarith) (abs_nonneg _) (by positivity)
    rw [abs_le]; constructor <;> linarith
  have t2 : |e * x| ≤ (1.01 * u * y) * (1.001 * y) := by
    rw [abs_mul]; exact mul_le_mul (by linarith) d2 (abs_nonneg _) (by positivity)
  have t3 : |f * x| ≤ (u * (1.001 * y + 2)) * (1.001 * y) := by
    rw [abs_mul]; exact mul_le_mul fb d2 (abs_nonneg _) (by positivity)
  have t : |(y - 2) * e + e * x + f * x + g + h| ≤ |(y - 2) * e| + |e * x| + |f * x| + |g| + |h| := by
    refine (abs_add_le _ _).trans (add_le_add_left ?_ _)
    refine (abs_add_le _ _).trans (add_le_add_left ?_ _)
    refine (abs_add_le _ _).trans (add_le_add_left ?_ _)
    exact abs_add_le _ _
  have p1 : 0 ≤ u * y := by positivity
  have p2 : 0 ≤ u * y ^ 2 := by positivity
  nlinarith

theorem log_err (hA : A.Accurate u) (hu : 0 ≤ u) (hu1 : u ≤ 1e-4) (hy : 0 < y) (hx : Rel u 1 x y) :
    |A.lg (A.fl (1 + A.fl (2 * x))) - log (1 + 2 * y)| ≤ 4 * u * (1 + log (1 + 2 * y)) := by
  obtain ⟨θ, l, r, e⟩ := arg_rel hA.fl hu (by linarith) hy hx
  have hl0 : 0 ≤ log (1 + 2 * y) := log_nonneg (by linarith)
  have hθ : 0 < θ := lt_of_lt_of_le (pow_pos (by linarith) 3) l
  have hc : 0 < (1 + 2 * y) * θ := by positivity
  rw [e]
  have h := hA.lg _ hc
  have e2 : log ((1 + 2 * y) * θ) = log (1 + 2 * y) + log θ := log_mul (by positivity) hθ.ne'
  rw [e2] at h
  have up : log θ ≤ 3.01 * u := by
    have h1 : log θ ≤ θ - 1 := log_le_sub_one_of_pos hθ
    have : ((1 - u) ^ 3)⁻¹ ≤ 1 + 3.01 * u := by
      rw [inv_eq_one_div, div_le_iff₀ (pow_pos (by linarith) 3)]
      nlinarith [mul_nonneg hu hu, mul_nonneg (mul_nonneg hu hu) hu, mul_nonneg (mul_nonneg (mul_nonneg hu hu) hu) hu,
        mul_le_mul_of_nonneg_left hu1 hu, mul_le_mul_of_nonneg_left hu1 (mul_nonneg hu hu)]
    linarith
  have lo : -(3.01 * u) ≤ log θ := by
    have h1 : 1 - θ⁻¹ ≤ log θ := one_sub_inv_le_log_of_pos hθ
    have : θ⁻¹ ≤ ((1 - u) ^ 3)⁻¹ := (inv_le_inv₀ hθ (pow_pos (by linarith) 3)).2 l
    have : ((1 - u) ^ 3)⁻¹ ≤ 1 + 3.01 * u := by
      rw [inv_eq_one_div, div_le_iff₀ (pow_pos (by linarith) 3)]
      nlinarith [mul_nonneg hu hu, mul_nonneg (mul_nonneg hu hu) hu, mul_nonneg (mul_nonneg (mul_nonneg hu hu) hu) hu,
        mul_le_mul_of_nonneg_left hu1 hu, mul_le_mul_of_nonneg_left hu1 (mul_nonneg hu hu)]
    linarith
  have hlt : |log θ| ≤ 3.01 * u := abs_le.2 ⟨lo, up⟩
  have h4 : |log (1 + 2 * y) + log θ| ≤ log (1 + 2 * y) + 3.01 * u := by
    refine (abs_add_le _ _).trans ?_
    rw [abs_of_nonneg hl0]; linarith
  calc |A.lg ((1 + 2 * y) * θ) - log (1 + 2 * y)|
      = |(A.lg ((1 + 2 * y) * θ) - (log (1 + 2 * y) + log θ)) + log θ| := by congr 1; ring
    _ ≤ 4 * u * (log (1 + 2 * y) + 3.01 * u) + 3.01 * u :=
        (abs_add_le _ _).trans (add_le_add (h.trans (mul_le_mul_of_nonneg_left h4 (by positivity))) hlt)
    _ ≤ _ := by nlinarith

/-- error of the second term -/
theorem termB_err (hA : A.Accurate u) (hu : 0 ≤ u) (hu1 : u ≤ 1e-4) (hy : 0 < y) (hx : Rel u 1 x y) :
    |termB A x - ((y - 2) * y - 2) * log (1 + 2 * y)| ≤ 21 * u * ((1 + y) ^ 2 * (1 + log (1 + 2 * y))) := by
  have h1 := factor_err hA.fl hu hu1 hy hx
  have h2 := log_err hA hu hu1 hy hx
  unfold termB
  generalize A.fl (A.fl (A.fl (x - 2) * x) - 2) = T at h1 ⊢
  generalize A.lg (A.fl (1 + A.fl (2 * x))) = L at h2 ⊢
  have hl0 : 0 ≤ log (1 + 2 * y) := log_nonneg (by linarith)
  set ℓ := log (1 + 2 * y)
  set t := (y - 2) * y - 2 with ht
  set q := (1 + y) ^ 2 with hq
  have q0 : 0 < q := by positivity
  have tb : |t| ≤ 2 * q := by rw [ht, hq, abs_le]; constructor <;> nlinarith
  have e1 : T * L - t * ℓ = (T - t) * L + t * (L - ℓ) := by ring
  have Lb : |L| ≤ 1.001 * (1 + ℓ) := by
    have : |L| ≤ |L - ℓ| + |ℓ| := by
      have := abs_add_le (L - ℓ) ℓ
      simpa using this
    rw [abs_of_nonneg hl0] at this
    nlinarith
  have Tb : |T| ≤ 2.001 * q := by
    have : |T| ≤ |T - t| + |t| := by
      have := abs_add_le (T - t) t
      simpa using this
    nlinarith
  have p : |T * L - t * ℓ| ≤ 9 * u * q * (1.001 * (1 + ℓ)) + 2 * q * (4 * u * (1 + ℓ)) := by
    rw [e1]
    refine (abs_add_le _ _).trans (add_le_add ?_ ?_)
    · rw [abs_mul]; exact mul_le_mul h1 Lb (abs_nonneg _) (by positivity)
    · rw [abs_mul]; exact mul_le_mul tb h2 (abs_nonneg _) (by positivity)
  have r : |A.fl (T * L) - T * L| ≤ u * (2.001 * q * (1.001 * (1 + ℓ))) := by
    refine (hA.fl _).trans (mul_le_mul_of_nonneg_left ?_ hu)
    rw [abs_mul]; exact mul_le_mul Tb Lb (abs_nonneg _) (by positivity)
  calc |A.fl (T * L) - t * ℓ| = |(A.fl (T * L) - T * L) + (T * L - t * ℓ)| := by congr 1; ring
    _ ≤ _ := (abs_add_le _ _).trans (add_le_add r p)
    _ = u * q * (1 + ℓ) * (2.001 * 1.001 + 9 * 1.001 + 8) := by ring
    _ ≤ u * q * (1 + ℓ) * 21 := mul_le_mul_of_nonneg_left (by norm_num) (by positivity)
    _ = _ := by ring

/-- error of the bracket -/
theorem bracket_err (hA : A.Accurate u) (hu : 0 ≤ u) (hu1 : u ≤ 1e-4) (hy : 0 < y) (hx : Rel u 1 x y) :
    |A.fl (termA A x + termB A x) - (exA y + ((y - 2) * y - 2) * log (1 + 2 * y))| ≤
      108 * u * ((1 + y) ^ 2 * (1 + log (1 + 2 * y))) := by
  have h1 := (termA_rel hA.fl hu (by linarith) hy hx).abs_le hu (by push_cast; linarith)
  have h2 := termB_err hA hu hu1 hy hx
  have ha := exA_le hy
  have ha0 := exA_pos hy
  rw [abs_of_pos ha0] at h1
  push_cast at h1
  generalize termA A x = P at h1 ⊢
  generalize termB A x = Q at h2 ⊢
  have hl0 : 0 ≤ log (1 + 2 * y) := log_nonneg (by linarith)
  have tb : |(y - 2) * y - 2| ≤ 2 * (1 + y) ^ 2 := by rw [abs_le]; constructor <;> nlinarith
  set ℓ := log (1 + 2 * y)
  set t := (y - 2) * y - 2 with ht
  set q := (1 + y) ^ 2 with hq
  set M := q * (1 + ℓ) with hM
  have q0 : 0 < q := by positivity
  have qM : q ≤ M := by rw [hM]; nlinarith
  have h1' : |P - exA y| ≤ 77 * u * M := by
    refine h1.trans ?_
    have : u * exA y ≤ u * (4 * M) := mul_le_mul_of_nonneg_left (by linarith) hu
    have : 0 ≤ u * M := by positivity
    nlinarith
  have e : P + Q - (exA y + t * ℓ) = (P - exA y) + (Q - t * ℓ) := by ring
  have s : |P + Q - (exA y + t * ℓ)| ≤ 98 * u * M := by
    rw [e]; refine (abs_add_le _ _).trans ?_; linarith
  have tl : |t * ℓ| ≤ 2 * M := by
    rw [abs_mul, abs_of_nonneg hl0, hM]
    have := mul_le_mul_of_nonneg_right tb hl0
    nlinarith
  have b : |P + Q| ≤ 6.1 * M := by
    have : |P + Q| ≤ |P + Q - (exA y + t * ℓ)| + |exA y + t * ℓ| := by
      have := abs_add_le (P + Q - (exA y + t * ℓ)) (exA y + t * ℓ)
      simpa using this
    have h3 : |exA y + t * ℓ| ≤ 6 * M := by
      refine (abs_add_le _ _).trans ?_
      rw [abs_of_pos ha0]; linarith
    have M0 : 0 < M := by positivity
    nlinarith
  have r := (hA.fl (P + Q)).trans (mul_le_mul_of_nonneg_left b hu)
  calc |A.fl (P + Q) - (exA y + t * ℓ)| = |(A.fl (P + Q) - (P + Q)) + (P + Q - (exA y + t * ℓ))| := by congr 1; ring
    _ ≤ _ := (abs_add_le _ _).trans (add_le_add r s)
    _ ≤ _ := by have : 0 ≤ u * M := by positivity
                nlinarith

/-! ## The factor in front, and the region of cancellation -/

theorem Rel.pos {u a b : ℝ} {n : ℕ} (hu1 : u < 1) (h : Rel u n a b) (hb : 0 < b) : 0 < a := by
  obtain ⟨θ, l, -, rfl⟩ := h
  exact mul_pos hb ((pow_pos (by linarith) n).trans_le l)

theorem Rel.weaken {u a b : ℝ} (hu : 0 ≤ u) (hu1 : u ≤ 1 / 100) (h : |a - b| ≤ 4 * u * |b|) : Rel u 5 a b := by
  rcases eq_or_ne b 0 with rfl | hb
  · simp at h
    rw [h]; exact Rel.refl hu (by linarith) 0
  have h' : |a / b - 1| ≤ 4 * u := by
    have e : a / b - 1 = (a - b) / b := by field_simp
    rw [e, abs_div, div_le_iff₀ (abs_pos.2 hb)]; exact h
  have h2 := _root_.abs_le.1 h'
  have p : (1 - u) ^ 5 ≤ 1 - 4 * u := by
    have e : (1 - u) ^ 5 = 1 - 5 * u + u * (u * (10 - 10 * u + 5 * u ^ 2 - u ^ 3)) := by ring
    rw [e]
    have : u * (10 - 10 * u + 5 * u ^ 2 - u ^ 3) ≤ 1 := by nlinarith [pow_nonneg hu 2, pow_nonneg hu 3, pow_nonneg hu 4]
    nlinarith
  have p0 : 0 < (1 - u) ^ 5 := pow_pos (by linarith) 5
  refine ⟨a / b, by linarith, ?_, by field_simp⟩
  rw [inv_eq_one_div, le_div_iff₀ p0]
  have : a / b ≤ 1 + 4 * u := by linarith
  calc a / b * (1 - u) ^ 5 ≤ (1 + 4 * u) * (1 - 4 * u) := mul_le_mul this p p0.le (by linarith)
    _ ≤ 1 := by nlinarith

/-- the factor in front of the bracket -/
theorem front_rel {u : ℝ} {A : Arith} (hA : A.Accurate u) (hu : 0 ≤ u) (hu1 : u ≤ 1 / 100) (k : PhysConst) (s : KN) {x y : ℝ} (hy : 0 < y)
    (hx : Rel u 1 x y) :
    Rel u 17 (A.fl (A.fl (A.fl π * scaleR A k s) * A.cb x)) (π * s.scale k * y ^ (-3 : ℤ)) := by
  have hu2 : u < 1 := by linarith
  have r0 : ∀ c : ℝ, Rel u 0 c c := fun c => Rel.refl hu hu2 c
  have a1 : Rel u 1 (A.fl (k.alpha ^ 2)) (k.alpha ^ 2) := (r0 _).round hA.fl hu hu2
  have a2 : Rel u 2 (A.fl (s.Z * A.fl (k.alpha ^ 2))) (s.Z * k.alpha ^ 2) := ((r0 _).mul hu2 a1).round hA.fl hu hu2
  have a3 : Rel u 1 (A.fl (k.hbarc ^ 2)) (k.hbarc ^ 2) := (r0 _).round hA.fl hu hu2
  have a4 : Rel u 4 _ (s.Z * k.alpha ^ 2 * k.hbarc ^ 2) := (a2.mul hu2 a3).round hA.fl hu hu2
  have a5 : Rel u 1 (A.fl (s.mc2 * s.mc2)) (s.mc2 * s.mc2) := (r0 _).round hA.fl hu hu2
  have a6 : Rel u 6 (scaleR A k s) (s.scale k) := by
    have := (a4.div hu2 a5).round hA.fl hu hu2
    exact this
  have a7 : Rel u 1 (A.fl π) π := (r0 _).round hA.fl hu hu2
  have a8 : Rel u 8 (A.fl (A.fl π * scaleR A k s)) (π * s.scale k) := (a7.mul hu2 a6).round hA.fl hu hu2
  have hxpos := hx.pos hu2 hy
  have c1 : Rel u 5 (A.cb x) (x ^ (-3 : ℤ)) := Rel.weaken hu hu1 (hA.cb x hxpos)
  have c2 : Rel u 3 (x ^ (-3 : ℤ)) (y ^ (-3 : ℤ)) := by
    have := (hx.pow hu2 3).inv hu2
    rw [zpow_neg, zpow_neg]
    exact_mod_cast this
  have c3 : Rel u 8 (A.cb x) (y ^ (-3 : ℤ)) := by
    obtain ⟨θ, l, r, e⟩ := c1
    obtain ⟨θ', l', r', e'⟩ := c2
    have := Rel.mul (n := 5) (m := 3) hu2 (a := θ) (b := 1) (c := θ') (d := 1) ⟨θ, l, r, by ring⟩ ⟨θ', l', r', by ring⟩
    obtain ⟨η, l2, r2, e2⟩ := this
    exact ⟨η, l2, r2, by rw [e, e', mul_assoc, mul_comm θ' θ, e2]; ring⟩
  exact (a8.mul hu2 c3).round hA.fl hu hu2

/-- the second term is negative, with a bound -/
theorem termB_neg {u : ℝ} {A : Arith} (hA : A.Accurate u) (hu : 0 ≤ u) (hu1 : u ≤ 1e-4) {x y c ℓ τ : ℝ} (hy : 0 < y) (hy1 : y ≤ 0.01)
    (hx : Rel u 1 x y) (hc : A.fl (1 + A.fl (2 * x)) = c) (hc0 : 0 < c) (hℓ : 0 < ℓ) (hlog : ℓ ≤ log c) (hτ : 0 < τ)
    (ht : τ ≤ 2 + 2 * y - y ^ 2 - 10 * u) : termB A x ≤ -(τ * ℓ * (1 - 6 * u)) := by
  have hT := factor_err hA.fl hu hu1 hy hx
  have hL := hA.lg c hc0
  unfold termB
  rw [hc]
  generalize A.fl (A.fl (A.fl (x - 2) * x) - 2) = T at hT ⊢
  generalize A.lg c = L at hL ⊢
  generalize log c = l at hlog hL
  rw [abs_of_pos (by linarith : 0 < l)] at hL
  have hL1 : ℓ * (1 - 4 * u) ≤ L := by
    have := (_root_.abs_le.1 hL).1
    have h3 : ℓ * (1 - 4 * u) ≤ l * (1 - 4 * u) := mul_le_mul_of_nonneg_right hlog (by linarith)
    linarith
  have hq : (1 + y) ^ 2 ≤ 1.1 := by nlinarith
  have hT1 : T ≤ -τ := by
    have := (_root_.abs_le.1 hT).2
    have h5 : 9 * u * (1 + y) ^ 2 ≤ 9 * u * 1.1 := mul_le_mul_of_nonneg_left hq (by positivity)
    nlinarith
  have hp : 0 < ℓ * (1 - 4 * u) := mul_pos hℓ (by linarith)
  have hTL : T * L ≤ -(τ * (ℓ * (1 - 4 * u))) := by
    have : τ * (ℓ * (1 - 4 * u)) ≤ (-T) * L := mul_le_mul (by linarith) hL1 hp.le (by linarith)
    linarith
  have hp2 : 0 < τ * (ℓ * (1 - 4 * u)) := mul_pos hτ hp
  have hr := (_root_.abs_le.1 (hA.fl (T * L))).2
  rw [abs_of_neg (by linarith)] at hr
  have h6 : A.fl (T * L) ≤ T * L * (1 - u) := by linarith
  have h7 : T * L * (1 - u) ≤ -(τ * (ℓ * (1 - 4 * u))) * (1 - u) := mul_le_mul_of_nonneg_right hTL (by linarith)
  have h8 : τ * ℓ * (1 - 6 * u) ≤ τ * (ℓ * (1 - 4 * u)) * (1 - u) := by
    have : 0 ≤ τ * ℓ := by positivity
    have e : τ * (ℓ * (1 - 4 * u)) * (1 - u) = τ * ℓ * (1 - 5 * u + 4 * u ^ 2) := by ring
    rw [e]
    exact mul_le_mul_of_nonneg_left (by nlinarith) this
  linarith

theorem exA_mono {y lo hi : ℝ} (h0 : 0 < lo) (h1 : lo ≤ y) (h2 : y ≤ hi) :
    exA y ≤ 2 * hi * (2 + hi * (1 + hi) * (8 + hi)) / (1 + 2 * lo) ^ 2 := by
  have hy : 0 < y := h0.trans_le h1
  have hh : 0 < hi := hy.trans_le h2
  unfold exA
  gcongr

/-- the rounded argument of the logarithm -/
theorem arg_double {A : Arith} (hA : A.Double) {x y : ℝ} (hx : Rel (1 / 2 ^ 53) 1 x y)
    (h1 : 1 / 2 ^ 18 + 1.01 / 2 ^ 54 ≤ y) (h2 : y ≤ 1 / 2 ^ 18 + 1.2 / 2 ^ 54) :
    A.fl (1 + A.fl (2 * x)) = 1 + (1 / 2 ^ 17 + 1 / 2 ^ 52) := by
  have hfl := hA.toAccurate.fl
  have r2 : Rel (1 / 2 ^ 53) 2 (A.fl (2 * x)) (2 * y) :=
    ((Rel.refl (n := 0) (by norm_num) (by norm_num) 2).mul (by norm_num) hx).round hfl (by norm_num) (by norm_num)
  have e2 := r2.abs_le (by norm_num) (by norm_num)
  have hypos : 0 < y := lt_of_lt_of_le (by norm_num) h1
  rw [abs_of_pos (show 0 < 2 * y by linarith)] at e2
  have h16 : 2 * y ≤ 1 / 2 ^ 16 := by
    have : (2 : ℝ) * (1 / 2 ^ 18 + 1.2 / 2 ^ 54) ≤ 1 / 2 ^ 16 := by norm_num
    linarith
  have hs : 1.01 * ((2 : ℕ) : ℝ) * (1 / 2 ^ 53) * (2 * y) ≤ 0.004 / 2 ^ 53 :=
    (mul_le_mul_of_nonneg_left h16 (by norm_num)).trans (by norm_num)
  have e3 := _root_.abs_le.1 (e2.trans hs)
  have hlo : (1 : ℝ) / 2 ^ 17 + 1.005 / 2 ^ 53 ≤ A.fl (2 * x) := by
    have h1' : (1 : ℝ) / 2 ^ 17 + 1.01 / 2 ^ 53 ≤ 2 * y := by
      refine le_trans ?_ (mul_le_mul_of_nonneg_left h1 (by norm_num : (0 : ℝ) ≤ 2)); norm_num
    have : (1 : ℝ) / 2 ^ 17 + 1.005 / 2 ^ 53 ≤ 1 / 2 ^ 17 + 1.01 / 2 ^ 53 - 0.004 / 2 ^ 53 := by norm_num
    linarith
  have hhi : A.fl (2 * x) ≤ (1 : ℝ) / 2 ^ 17 + 1.25 / 2 ^ 53 := by
    have h2' : 2 * y ≤ (1 : ℝ) / 2 ^ 17 + 1.2 / 2 ^ 53 := by
      refine le_trans (mul_le_mul_of_nonneg_left h2 (by norm_num : (0 : ℝ) ≤ 2)) ?_; norm_num
    have : (1 : ℝ) / 2 ^ 17 + 1.2 / 2 ^ 53 + 0.004 / 2 ^ 53 ≤ 1 / 2 ^ 17 + 1.25 / 2 ^ 53 := by norm_num
    linarith
  obtain ⟨n, hn, hd⟩ := hA.near (1 + A.fl (2 * x))
    (by have : (0 : ℝ) ≤ 1 / 2 ^ 17 + 1.005 / 2 ^ 53 := by norm_num
        linarith)
    (by have : (1 : ℝ) / 2 ^ 17 + 1.25 / 2 ^ 53 ≤ 1 := by norm_num
        linarith)
  rw [hn] at hd ⊢
  have hd' := _root_.abs_le.1 hd
  have b1 : (2 : ℝ) ^ 52 + 2 ^ 35 < n := by
    have : 1 + (1 / 2 ^ 17 + 1.005 / 2 ^ 53) - 1 / 2 ^ 53 ≤ (n : ℝ) / 2 ^ 52 := by linarith
    rw [le_div_iff₀ (by positivity)] at this
    refine lt_of_lt_of_le ?_ this
    norm_num
  have b2 : (n : ℝ) < (2 : ℝ) ^ 52 + 2 ^ 35 + 2 := by
    have : (n : ℝ) / 2 ^ 52 ≤ 1 + (1 / 2 ^ 17 + 1.25 / 2 ^ 53) + 1 / 2 ^ 53 := by linarith
    rw [div_le_iff₀ (by positivity)] at this
    refine lt_of_le_of_lt this ?_
    norm_num
  have c1 : (2 ^ 52 + 2 ^ 35 : ℤ) < n := by exact_mod_cast b1
  have c2 : n < (2 ^ 52 + 2 ^ 35 + 2 : ℤ) := by exact_mod_cast b2
  have : n = 2 ^ 52 + 2 ^ 35 + 1 := by omega
  rw [this]; norm_num

theorem log_lower {z : ℝ} (h0 : 0 < z) (h1 : z ≤ 0.001) : z - z ^ 2 / 2 + z ^ 3 / 3 - 1.01 * z ^ 4 ≤ log (1 + z) := by
  have := abs_log_sub_add_sum_range_le (x := -z) (by rw [abs_neg, abs_of_pos h0]; linarith) 3
  rw [abs_neg, abs_of_pos h0, sub_neg_eq_add] at this
  have h3 := (_root_.abs_le.1 this).1
  simp only [Finset.sum_range_succ, Finset.sum_range_zero] at h3
  push_cast at h3
  have h4 : z ^ (3 + 1) / (1 - z) ≤ 1.01 * z ^ 4 := by
    rw [div_le_iff₀ (by linarith)]
    have : 0 < z ^ 4 := by positivity
    nlinarith
  have e : (0 : ℝ) + (-z) ^ (0 + 1) / (0 + 1) + (-z) ^ (1 + 1) / (1 + 1) + (-z) ^ (2 + 1) / (2 + 1) =
      -(z - z ^ 2 / 2 + z ^ 3 / 3) := by ring
  rw [e] at h3
  linarith

/-- lower bound for the exact bracket -/
theorem bracket_lower {y : ℝ} (hy : 0 < y) :
    y ^ 3 / (1 + 2 * y) ≤ 9 / 16 * (exA y + ((y - 2) * y - 2) * log (1 + 2 * y)) := by
  have h := angInt_lower hy.le
  have e : exA y + ((y - 2) * y - 2) * log (1 + 2 * y) = y ^ 3 * angInt y := by
    have := prim_diff hy
    rw [angInt_eq hy, prim_diff hy]
    unfold exA
    field_simp
  rw [e]
  have hr0 : 0 < 1 / (1 + 2 * y) := by positivity
  have h2 : 16 / 9 * (1 / (1 + 2 * y)) ≤ angInt y := by
    refine le_trans ?_ h
    set ρ := 1 / (1 + 2 * y)
    have : 0 ≤ ρ * (ρ - 1 / 3) ^ 2 := by positivity
    nlinarith
  have h3 := mul_le_mul_of_nonneg_left h2 (show 0 ≤ y ^ 3 by positivity)
  have e2 : y ^ 3 / (1 + 2 * y) = 9 / 16 * (y ^ 3 * (16 / 9 * (1 / (1 + 2 * y)))) := by field_simp
  rw [e2]
  linarith

end Ries.KN
