import Verif.Spec.RoundedComptonAngles
import Mathlib.Tactic.Linarith
import Mathlib.Tactic.Positivity
import Mathlib.Tactic.FieldSimp
import Mathlib.Tactic.Ring

/-! # Lemmas on relative errors counted in multiples of a real number, and on the Klein-Nishina formula -/

namespace Ries

/-- `a` is `b` up to a relative error of `c v`. -/
def RE (v c a b : ℝ) : Prop := |a - b| ≤ c * v * |b|

namespace RE

variable {v c d e a b a' b' u : ℝ} {f : ℝ → ℝ}

theorem refl (v a : ℝ) : RE v 0 a a := by simp [RE]

theorem mono (hv : 0 ≤ v) (h : RE v c a b) (hc : c ≤ d) : RE v d a b :=
  h.trans (by gcongr)

theorem abs_le (h : RE v c a b) : |a| ≤ (1 + c * v) * |b| := by
  have := abs_add_le (a - b) b
  rw [sub_add_cancel] at this
  have h' : |a - b| ≤ c * v * |b| := h
  linarith

theorem mul (hv : 0 ≤ v) (hv' : v ≤ 1 / 1000) (hc : 0 ≤ c) (hd : 0 ≤ d) (h : RE v c a b) (h' : RE v d a' b')
    (he : c + d + c * d / 1000 ≤ e) : RE v e (a * a') (b * b') := by
  have h1 : |a * a' - b * b'| ≤ |a| * |a' - b'| + |a - b| * |b'| := by
    rw [← abs_mul, ← abs_mul]
    refine le_trans (le_of_eq ?_) (abs_add_le _ _)
    congr 1; ring
  have h2 := h.abs_le
  unfold RE at *
  rw [abs_mul]
  have hB := abs_nonneg b
  have hB' := abs_nonneg b'
  have h3 : |a| * |a' - b'| ≤ (1 + c * v) * |b| * (d * v * |b'|) :=
    mul_le_mul h2 h' (abs_nonneg _) (by positivity)
  have h4 : |a - b| * |b'| ≤ c * v * |b| * |b'| := mul_le_mul_of_nonneg_right h hB'
  have h5 : (1 + c * v) * |b| * (d * v * |b'|) + c * v * |b| * |b'| = (c + d + c * d * v) * v * (|b| * |b'|) := by ring
  have h6 : (c + d + c * d * v) ≤ e := by
    have := mul_le_mul_of_nonneg_left hv' (mul_nonneg hc hd)
    linarith
  have h7 : (c + d + c * d * v) * v * (|b| * |b'|) ≤ e * v * (|b| * |b'|) := by gcongr
  linarith

theorem inv (hv : 0 ≤ v) (hv' : v ≤ 1 / 1000) (hc : 0 ≤ c) (hc' : c < 1000) (h : RE v c a b) (hb : b ≠ 0)
    (he : c ≤ e * (1 - c / 1000)) : RE v e (1 / a) (1 / b) := by
  have hB : 0 < |b| := abs_pos.mpr hb
  have hcv : c * v ≤ c / 1000 := by
    have := mul_le_mul_of_nonneg_left hv' hc
    linarith
  have h1 : (1 - c / 1000) * |b| ≤ |a| := by
    have h2 := abs_sub_abs_le_abs_sub b a
    rw [abs_sub_comm] at h2
    have h3 : |a - b| ≤ c * v * |b| := h
    have h4 := mul_le_mul_of_nonneg_right hcv hB.le
    nlinarith
  have hpos : 0 < 1 - c / 1000 := by linarith
  have hA : 0 < |a| := lt_of_lt_of_le (mul_pos hpos hB) h1
  have ha : a ≠ 0 := abs_pos.mp hA
  have he0 : 0 ≤ e := by
    by_contra hn
    have := mul_neg_of_neg_of_pos (not_le.mp hn) hpos
    linarith
  unfold RE at *
  rw [div_sub_div _ _ ha hb, abs_div, abs_mul, abs_div, abs_one, div_le_iff₀ (by positivity)]
  have h5 : e * v * (1 / |b|) * (|a| * |b|) = e * v * |a| := by field_simp
  rw [h5, one_mul, mul_one, abs_sub_comm]
  refine h.trans ?_
  calc c * v * |b| ≤ e * (1 - c / 1000) * v * |b| := by gcongr
    _ = e * v * ((1 - c / 1000) * |b|) := by ring
    _ ≤ _ := by gcongr

theorem round (hv : 0 ≤ v) (hv' : v ≤ 1 / 1000) (hc : 0 ≤ c) (huv : u ≤ v) (hf : |a' - a| ≤ d * u * |a|) (hd : 0 ≤ d)
    (h : RE v c a b) (he : c + d + c * d / 1000 ≤ e) : RE v e a' b := by
  have h1 : RE v d a' a := hf.trans (by gcongr)
  have h2 := h.abs_le
  have h0 := abs_sub_le a' a b
  unfold RE at *
  have hB := abs_nonneg b
  have h3 : d * v * |a| ≤ d * v * ((1 + c * v) * |b|) := by gcongr
  have h6 : (c + d + c * d * v) ≤ e := by
    have := mul_le_mul_of_nonneg_left hv' (mul_nonneg hc hd)
    linarith
  have h7 : (c + d + c * d * v) * v * |b| ≤ e * v * |b| := by gcongr
  nlinarith

theorem fl (hf : Rounding u f) (hv : 0 ≤ v) (hv' : v ≤ 1 / 1000) (hc : 0 ≤ c) (huv : u ≤ v)
    (h : RE v c a b) (he : c + 1 + c / 1000 ≤ e) : RE v e (f a) b :=
  h.round hv hv' hc huv (d := 1) (by rw [one_mul]; exact hf a) (by norm_num) (by linarith)

theorem add (h : RE v c a b) (h' : RE v c a' b') (hb : 0 ≤ b) (hb' : 0 ≤ b') : RE v c (a + a') (b + b') := by
  unfold RE at *
  have := abs_add_le (a - b) (a' - b')
  rw [abs_of_nonneg hb] at h
  rw [abs_of_nonneg hb'] at h'
  rw [abs_of_nonneg (add_nonneg hb hb'), show a + a' - (b + b') = (a - b) + (a' - b') by ring]
  linarith

end RE

/-- A rounded difference with an absolute error of `p v m`, where `m` bounds the exact value. -/
theorem round_abs {v u p e m a b : ℝ} {f : ℝ → ℝ} (hf : Rounding u f) (hu : 0 ≤ u) (hv' : v ≤ 1 / 1000) (huv : u ≤ v)
    (hp : 0 ≤ p) (hm : 0 ≤ m) (h : |a - b| ≤ p * v * m) (hb : |b| ≤ m) (he : p + 1 + p / 1000 ≤ e) :
    |f a - b| ≤ e * v * m := by
  have hv : 0 ≤ v := hu.trans huv
  have h1 := hf a
  have h2 : |a| ≤ p * v * m + m := by
    have := abs_add_le (a - b) b
    rw [sub_add_cancel] at this
    linarith
  have h3 : u * |a| ≤ v * (p * v * m + m) := mul_le_mul huv h2 (abs_nonneg _) hv
  have h4 := abs_sub_le (f a) a b
  have h5 : p * v ≤ p / 1000 := by
    have := mul_le_mul_of_nonneg_left hv' hp
    linarith
  have h6 : v * (p * v * m + m) ≤ v * (p / 1000 * m + m) := by gcongr
  have h7 : (p + 1 + p / 1000) * v * m ≤ e * v * m := by gcongr
  linarith

namespace TArith

variable {T : TArith} {k : PhysConst} {s : KN} {u v E θ φ : ℝ}

theorem scale_re (hT : T.Accurate u) (hu : 0 ≤ u) (hv' : v ≤ 1 / 1000) (huv : u ≤ v) (hm : s.mc2 ≠ 0) :
    RE v (12.5 : ℝ) (T.scale k s) (s.scale k) := by
  have hv : 0 ≤ v := hu.trans huv
  have ha : RE v 4 (T.sq k.alpha) (k.alpha ^ 2) := (hT.sq _).trans (by gcongr)
  have hh : RE v 4 (T.sq k.hbarc) (k.hbarc ^ 2) := (hT.sq _).trans (by gcongr)
  have h1 : RE v (5.01 : ℝ) (T.fl (s.Z * T.sq k.alpha)) (s.Z * k.alpha ^ 2) :=
    ((RE.refl v s.Z).mul hv hv' le_rfl (by norm_num) ha (e := 4) (by norm_num)).fl hT.fl hv hv' (by norm_num) huv (by norm_num)
  have h2 : RE v (10.1 : ℝ) (T.fl (T.fl (s.Z * T.sq k.alpha) * T.sq k.hbarc)) (s.Z * k.alpha ^ 2 * k.hbarc ^ 2) :=
    (h1.mul hv hv' (by norm_num) (by norm_num) hh (e := (9.05 : ℝ)) (by norm_num)).fl hT.fl hv hv' (by norm_num) huv
      (by norm_num)
  have h3 : RE v (1 : ℝ) (T.fl (s.mc2 * s.mc2)) (s.mc2 * s.mc2) :=
    (RE.refl v _).fl hT.fl hv hv' le_rfl huv (by norm_num)
  have h4 := h3.inv hv hv' (by norm_num) (by norm_num) (mul_ne_zero hm hm) (e := (1.1 : ℝ)) (by norm_num)
  have h5 := (h2.mul hv hv' (by norm_num) (by norm_num) h4 (e := (11.3 : ℝ)) (by norm_num)).fl hT.fl hv hv' (by norm_num) huv
    (e := (12.5 : ℝ)) (by norm_num)
  rw [mul_one_div, mul_one_div] at h5
  exact h5

/-- the denominator of the energy ratio, for a cosine with an absolute error of `p w` -/
theorem den_re (hT : T.Accurate u) (hu : 0 ≤ u) (hE : 0 < E) (hv' : v ≤ 1 / 1000) (hx : (E / k.me + 1) * u ≤ v) :
    RE v 11 (T.fl (1 + T.fl (T.fl (E / k.me) * T.fl (1 - T.cos θ)))) (1 + E / k.me * (1 - Real.cos θ)) := by
  have hxp : 0 < E / k.me := div_pos hE k.me_pos
  generalize E / k.me = x at *
  have hu1 : u ≤ 1 / 1000 := by nlinarith
  have hc1 := Real.neg_one_le_cos θ
  have hc2 := Real.cos_le_one θ
  have hcos := hT.cos θ
  generalize T.cos θ = c' at *
  generalize Real.cos θ = c at *
  have hc : |c' - c| ≤ 4 * u := hcos.trans (by
    have : |c| ≤ 1 := abs_le.mpr ⟨hc1, hc2⟩
    nlinarith)
  have hq := hT.fl (1 - c')
  generalize T.fl (1 - c') = q' at *
  have hX := hT.fl x
  generalize T.fl x = x' at *
  have hP := hT.fl (x' * q')
  generalize T.fl (x' * q') = p' at *
  have hD := hT.fl (1 + p')
  generalize T.fl (1 + p') = D' at *
  set q := 1 - c with hqd
  have hq0 : 0 ≤ q := by linarith
  have hq2 : q ≤ 2 := by linarith
  have e1 : |q' - q| ≤ (6.1 : ℝ) * u := by
    have h1 : |1 - c'| ≤ 2 + 4 * u := by
      rw [show 1 - c' = q + (c - c') by rw [hqd]; ring]
      refine (abs_add_le _ _).trans ?_
      rw [abs_of_nonneg hq0, abs_sub_comm c c']; linarith
    have h2 : |q' - q| ≤ |q' - (1 - c')| + |(1 - c') - q| := abs_sub_le _ _ _
    have h3 : |(1 - c') - q| = |c' - c| := by rw [hqd, abs_sub_comm c' c]; congr 1; ring
    rw [h3] at h2
    nlinarith
  rw [abs_of_pos hxp] at hX
  have hx' : |x'| ≤ (1.001 : ℝ) * x := by
    have := abs_add_le (x' - x) x
    rw [sub_add_cancel, abs_of_pos hxp] at this
    nlinarith
  have e2 : |x' * q' - x * q| ≤ (8.2 : ℝ) * (x * u) := by
    have h1 : |x' * q' - x * q| ≤ |x'| * |q' - q| + |x' - x| * |q| := by
      rw [← abs_mul, ← abs_mul]
      refine le_trans (le_of_eq ?_) (abs_add_le _ _)
      congr 1; ring
    have h2 : |x'| * |q' - q| ≤ (1.001 : ℝ) * x * ((6.1 : ℝ) * u) := mul_le_mul hx' e1 (abs_nonneg _) (by positivity)
    have h3 : |x' - x| * |q| ≤ u * x * 2 :=
      mul_le_mul hX (by rw [abs_of_nonneg hq0]; exact hq2) (abs_nonneg _) (by positivity)
    nlinarith [mul_nonneg hu hxp.le]
  have hxu := mul_nonneg hxp.le hu
  have e3 : |p' - x * q| ≤ (10.3 : ℝ) * (x * u) := by
    have h1 := abs_sub_le p' (x' * q') (x * q)
    have h2 : |x' * q'| ≤ (2.1 : ℝ) * x := by
      have := abs_add_le (x' * q' - x * q) (x * q)
      rw [sub_add_cancel, abs_of_nonneg (mul_nonneg hxp.le hq0)] at this
      have h4 : x * q ≤ x * 2 := mul_le_mul_of_nonneg_left hq2 hxp.le
      nlinarith
    have h3 : u * |x' * q'| ≤ u * ((2.1 : ℝ) * x) := mul_le_mul_of_nonneg_left h2 hu
    linarith
  have hxq : 0 ≤ x * q := mul_nonneg hxp.le hq0
  have huv : x * u + u ≤ v := by linarith
  have e4 : |1 + p' - (1 + x * q)| ≤ (10.3 : ℝ) * (x * u) := by
    rw [show 1 + p' - (1 + x * q) = p' - x * q by ring]; exact e3
  have e5 : |1 + p'| ≤ 1 + x * q + (10.3 : ℝ) * (x * u) := by
    have := abs_add_le (1 + p' - (1 + x * q)) (1 + x * q)
    rw [sub_add_cancel, abs_of_nonneg (by linarith : 0 ≤ 1 + x * q)] at this
    linarith
  have e6 := abs_sub_le D' (1 + p') (1 + x * q)
  have e7 : u * |1 + p'| ≤ u * (1 + x * q + (10.3 : ℝ) * (x * u)) := mul_le_mul_of_nonneg_left e5 hu
  unfold RE
  rw [abs_of_nonneg (by linarith : 0 ≤ 1 + x * q)]
  have e8 : u * (10.3 * (x * u)) ≤ (0.1 : ℝ) * (x * u) := by nlinarith
  have e9 : 0 ≤ (x * u) * (x * q) := mul_nonneg hxu hxq
  have e10 : 11 * (x * u + u) * (1 + x * q) ≤ 11 * v * (1 + x * q) := by
    have : 0 ≤ 1 + x * q := by linarith
    gcongr
  nlinarith

theorem epOverE_re (hT : T.Accurate u) (hu : 0 ≤ u) (hE : 0 < E) (hv' : v ≤ 1 / 1000) (hx : (E / k.me + 1) * u ≤ v) :
    RE v (12.3 : ℝ) (T.epOverE k E θ) (KN.EpOverE k E θ) := by
  have hxp : 0 < E / k.me := div_pos hE k.me_pos
  have huv : u ≤ v := by nlinarith
  have hv : 0 ≤ v := hu.trans huv
  have hq : 0 ≤ E / k.me * (1 - Real.cos θ) := mul_nonneg hxp.le (by linarith [Real.cos_le_one θ])
  have h : RE v (11.2 : ℝ) (1 / T.fl (1 + T.fl (T.fl (E / k.me) * T.fl (1 - T.cos θ))))
      (1 / (1 + E / k.me * (1 - Real.cos θ))) :=
    (den_re hT hu hE hv' hx).inv hv hv' (by norm_num) (by norm_num) (by linarith) (by norm_num)
  have h2 := h.fl hT.fl hv hv' (by norm_num) huv (e := (12.3 : ℝ)) (by norm_num)
  exact h2

theorem EpOverE_pos' (hE : 0 < E) : 0 < KN.EpOverE k E θ := by
  have hxp : 0 < E / k.me := div_pos hE k.me_pos
  have hq : 0 ≤ E / k.me * (1 - Real.cos θ) := mul_nonneg hxp.le (by linarith [Real.cos_le_one θ])
  unfold KN.EpOverE
  positivity

/-- the sum of the energy ratio and its inverse -/
theorem sum_re (hT : T.Accurate u) (hu : 0 ≤ u) (hE : 0 < E) (hv' : v ≤ 1 / 1000) (hx : (E / k.me + 1) * u ≤ v) :
    RE v (14.7 : ℝ) (T.fl (T.epOverE k E θ + T.fl (1 / T.epOverE k E θ)))
      (KN.EpOverE k E θ + 1 / KN.EpOverE k E θ) := by
  have hxp : 0 < E / k.me := div_pos hE k.me_pos
  have huv : u ≤ v := by nlinarith
  have hv : 0 ≤ v := hu.trans huv
  have hr := epOverE_re hT hu hE hv' hx (θ := θ)
  have hp := EpOverE_pos' (k := k) (θ := θ) hE
  have h1 : RE v (13.6 : ℝ) (T.fl (1 / T.epOverE k E θ)) (1 / KN.EpOverE k E θ) :=
    (hr.inv hv hv' (by norm_num) (by norm_num) hp.ne' (e := (12.5 : ℝ)) (by norm_num)).fl hT.fl hv hv' (by norm_num) huv
      (by norm_num)
  exact ((hr.mono hv (by norm_num)).add h1 hp.le (by positivity)).fl hT.fl hv hv' (by norm_num) huv (by norm_num)

theorem sinsq_re (hT : T.Accurate u) (hu : 0 ≤ u) (hv' : v ≤ 1 / 1000) (huv : u ≤ v) :
    RE v (12.2 : ℝ) (T.sq (T.sin θ)) (Real.sin θ ^ 2) := by
  have hv : 0 ≤ v := hu.trans huv
  have h : RE v 4 (T.sin θ) (Real.sin θ) := (hT.sin θ).trans (by gcongr)
  have h2 := h.mul hv hv' (by norm_num) (by norm_num) h (e := (8.1 : ℝ)) (by norm_num)
  rw [← pow_two, ← pow_two] at h2
  exact h2.round hv hv' (by norm_num) huv (hT.sq _) (by norm_num) (by norm_num)

theorem cossq_re (hT : T.Accurate u) (hu : 0 ≤ u) (hv' : v ≤ 1 / 1000) (huv : u ≤ v) :
    RE v (12.2 : ℝ) (T.sq (T.cos φ)) (Real.cos φ ^ 2) := by
  have hv : 0 ≤ v := hu.trans huv
  have h : RE v 4 (T.cos φ) (Real.cos φ) := (hT.cos φ).trans (by gcongr)
  have h2 := h.mul hv hv' (by norm_num) (by norm_num) h (e := (8.1 : ℝ)) (by norm_num)
  rw [← pow_two, ← pow_two] at h2
  exact h2.round hv hv' (by norm_num) huv (hT.sq _) (by norm_num) (by norm_num)

theorem two_le_add_inv {r : ℝ} (hr : 0 < r) : 2 ≤ r + 1 / r := by
  have : r + 1 / r - 2 = (r - 1) ^ 2 / r := by field_simp; ring
  have h : 0 ≤ (r - 1) ^ 2 / r := by positivity
  linarith

theorem unpol_re (hT : T.Accurate u) (hu : 0 ≤ u) (hE : 0 < E) (hm : s.mc2 ≠ 0) (hv' : v ≤ 1 / 1000)
    (hx : (E / k.me + 1) * u ≤ v) : RE v 88 (T.dOmegaUnpol k s E θ) (s.dOmegaUnpol k E θ) := by
  have hxp : 0 < E / k.me := div_pos hE k.me_pos
  have huv : u ≤ v := by nlinarith
  have hv : 0 ≤ v := hu.trans huv
  have hr := epOverE_re hT hu hE hv' hx (θ := θ)
  have ht := sum_re hT hu hE hv' hx (θ := θ)
  have hp := EpOverE_pos' (k := k) (θ := θ) hE
  have hs := sinsq_re hT hu hv' huv (θ := θ)
  have hsc := scale_re hT hu hv' huv hm (k := k)
  unfold TArith.dOmegaUnpol KN.dOmegaUnpol
  simp only
  generalize T.epOverE k E θ = r' at *
  generalize KN.EpOverE k E θ = r at *
  have h2 := two_le_add_inv hp
  have hs1 : Real.sin θ ^ 2 ≤ 1 := Real.sin_sq_le_one θ
  have hs0 : 0 ≤ Real.sin θ ^ 2 := sq_nonneg _
  generalize Real.sin θ ^ 2 = S at *
  generalize T.sq (T.sin θ) = S' at *
  generalize T.fl (r' + T.fl (1 / r')) = t' at *
  generalize r + 1 / r = t at *
  have hB : RE v (42.7 : ℝ) (T.fl (t' - S')) (t - S) := by
    have hB1 : 1 ≤ t - S := by linarith
    unfold RE at *
    rw [abs_of_nonneg (by linarith : 0 ≤ t)] at ht
    rw [abs_of_nonneg hs0] at hs
    rw [abs_of_nonneg (by linarith : 0 ≤ t - S)]
    have h3 : |t' - S' - (t - S)| ≤ |t' - t| + |S' - S| := by
      rw [show t' - S' - (t - S) = (t' - t) - (S' - S) by ring]
      exact abs_sub _ _
    refine round_abs hT.fl hu hv' huv (p := (41.6 : ℝ)) (by norm_num) (by linarith) ?_ (by rw [abs_of_nonneg]; linarith)
      (by norm_num)
    nlinarith
  have hpi : RE v 1 (T.fl Real.pi) Real.pi := (RE.refl v _).fl hT.fl hv hv' le_rfl huv (by norm_num)
  have f1 : RE v (14.6 : ℝ) (T.fl (T.fl Real.pi * T.scale k s)) (Real.pi * s.scale k) :=
    (hpi.mul hv hv' (by norm_num) (by norm_num) hsc (e := (13.55 : ℝ)) (by norm_num)).fl hT.fl hv hv' (by norm_num) huv
      (by norm_num)
  have f2 : RE v (28.2 : ℝ) (T.fl (T.fl (T.fl Real.pi * T.scale k s) * r')) (Real.pi * s.scale k * r) :=
    (f1.mul hv hv' (by norm_num) (by norm_num) hr (e := (27.1 : ℝ)) (by norm_num)).fl hT.fl hv hv' (by norm_num) huv
      (by norm_num)
  have f3 : RE v (42.1 : ℝ) (T.fl (T.fl (T.fl (T.fl Real.pi * T.scale k s) * r') * r')) (Real.pi * s.scale k * r * r) :=
    (f2.mul hv hv' (by norm_num) (by norm_num) hr (e := (40.9 : ℝ)) (by norm_num)).fl hT.fl hv hv' (by norm_num) huv
      (by norm_num)
  exact (f3.mul hv hv' (by norm_num) (by norm_num) hB (e := (86.7 : ℝ)) (by norm_num)).fl hT.fl hv hv' (by norm_num) huv
      (by norm_num)

theorem pol_err (hT : T.Accurate u) (hu : 0 ≤ u) (hE : 0 < E) (hm : s.mc2 ≠ 0) (hv' : v ≤ 1 / 1000)
    (hx : (E / k.me + 1) * u ≤ v) :
    |T.dOmega k s E θ φ - s.dOmega k E θ φ| ≤ 88 * v * |s.dOmega k E θ (Real.pi / 2)| := by
  have hxp : 0 < E / k.me := div_pos hE k.me_pos
  have huv : u ≤ v := by nlinarith
  have hv : 0 ≤ v := hu.trans huv
  have hr := epOverE_re hT hu hE hv' hx (θ := θ)
  have ht := sum_re hT hu hE hv' hx (θ := θ)
  have hp := EpOverE_pos' (k := k) (θ := θ) hE
  have hs := sinsq_re hT hu hv' huv (θ := θ)
  have hc := cossq_re hT hu hv' huv (φ := φ)
  have hsc := scale_re hT hu hv' huv hm (k := k)
  unfold TArith.dOmega KN.dOmega
  simp only [Real.cos_pi_div_two]
  rw [zero_pow two_ne_zero, mul_zero, sub_zero]
  generalize T.epOverE k E θ = r' at *
  generalize KN.EpOverE k E θ = r at *
  have h2 := two_le_add_inv hp
  have hs1 : Real.sin θ ^ 2 ≤ 1 := Real.sin_sq_le_one θ
  have hs0 : 0 ≤ Real.sin θ ^ 2 := sq_nonneg _
  have hc1 : Real.cos φ ^ 2 ≤ 1 := Real.cos_sq_le_one φ
  have hc0 : 0 ≤ Real.cos φ ^ 2 := sq_nonneg _
  generalize Real.sin θ ^ 2 = S at *
  generalize T.sq (T.sin θ) = S' at *
  generalize Real.cos φ ^ 2 = C at *
  generalize T.sq (T.cos φ) = C' at *
  generalize T.fl (r' + T.fl (1 / r')) = t' at *
  generalize r + 1 / r = t at *
  have g1 : RE v (13.3 : ℝ) (T.fl (2 * S')) (2 * S) :=
    ((RE.refl v 2).mul hv hv' le_rfl (by norm_num) hs (e := (12.2 : ℝ)) (by norm_num)).fl hT.fl hv hv' (by norm_num) huv
      (by norm_num)
  have g2 : RE v (26.8 : ℝ) (T.fl (T.fl (2 * S') * C')) (2 * S * C) :=
    (g1.mul hv hv' (by norm_num) (by norm_num) hc (e := (25.7 : ℝ)) (by norm_num)).fl hT.fl hv hv' (by norm_num) huv
      (by norm_num)
  have hSC0 : 0 ≤ 2 * S * C := by positivity
  have hSC : 2 * S * C ≤ t := by nlinarith
  generalize T.fl (T.fl (2 * S') * C') = G' at *
  generalize 2 * S * C = G at *
  have hBt : |t - G| ≤ t := by rw [abs_of_nonneg] <;> linarith
  have hB : |T.fl (t' - G') - (t - G)| ≤ (42.7 : ℝ) * v * t := by
    unfold RE at ht g2
    rw [abs_of_nonneg (by linarith : 0 ≤ t)] at ht
    rw [abs_of_nonneg hSC0] at g2
    have h3 : |t' - G' - (t - G)| ≤ |t' - t| + |G' - G| := by
      rw [show t' - G' - (t - G) = (t' - t) - (G' - G) by ring]
      exact abs_sub _ _
    refine round_abs hT.fl hu hv' huv (p := (41.6 : ℝ)) (by norm_num) (by linarith) ?_ hBt (by norm_num)
    nlinarith
  have f1 : RE v (13.6 : ℝ) (T.fl (0.5 * T.scale k s)) (0.5 * s.scale k) :=
    ((RE.refl v 0.5).mul hv hv' (by norm_num) (by norm_num) hsc (e := (12.5 : ℝ)) (by norm_num)).fl hT.fl hv hv' (by norm_num)
      huv (by norm_num)
  have f2 : RE v (27.2 : ℝ) (T.fl (T.fl (0.5 * T.scale k s) * r')) (0.5 * s.scale k * r) :=
    (f1.mul hv hv' (by norm_num) (by norm_num) hr (e := (26.1 : ℝ)) (by norm_num)).fl hT.fl hv hv' (by norm_num) huv
      (by norm_num)
  have f3 : RE v (41 : ℝ) (T.fl (T.fl (T.fl (0.5 * T.scale k s) * r') * r')) (0.5 * s.scale k * r * r) :=
    (f2.mul hv hv' (by norm_num) (by norm_num) hr (e := (39.9 : ℝ)) (by norm_num)).fl hT.fl hv hv' (by norm_num) huv
      (by norm_num)
  generalize T.fl (T.fl (T.fl (0.5 * T.scale k s) * r') * r') = F' at *
  generalize 0.5 * s.scale k * r * r = F at *
  generalize T.fl (t' - G') = B' at *
  generalize t - G = B at *
  have ht0 : 0 ≤ t := by linarith
  rw [abs_mul, abs_of_nonneg ht0]
  refine round_abs hT.fl hu hv' huv (p := (86.5 : ℝ)) (by norm_num) (by positivity) ?_ ?_ (by norm_num)
  · have h1 : |F' * B' - F * B| ≤ |F'| * |B' - B| + |F' - F| * |B| := by
      rw [← abs_mul, ← abs_mul]
      refine le_trans (le_of_eq ?_) (abs_add_le _ _)
      congr 1; ring
    have hF := f3.abs_le
    have hFn := abs_nonneg F
    have hF2 : |F'| ≤ (1.05 : ℝ) * |F| := by nlinarith
    have h4 : |F'| * |B' - B| ≤ (1.05 : ℝ) * |F| * ((42.7 : ℝ) * v * t) :=
      mul_le_mul hF2 hB (abs_nonneg _) (by positivity)
    have h5 : |F' - F| * |B| ≤ 41 * v * |F| * t := mul_le_mul f3 hBt (abs_nonneg _) (by positivity)
    have h6 : 0 ≤ v * |F| * t := by positivity
    linarith
  · rw [abs_mul]
    exact mul_le_mul_of_nonneg_left hBt (abs_nonneg _)

end TArith

end Ries
