import Verif.Spec.ExponentRangeCompton
import Verif.Lemmas.ExponentRange
import Verif.Lemmas.ExponentRangeKN
import Verif.Lemmas.RoundedComptonAngles

/-! # Lemmas for C155: the ranges of the intermediate results of the differential Klein-Nishina formula -/

namespace Ries

namespace TArith

variable {T : TArith} {u : ℝ}

/-- the operations of `T`, without rounding if the exact result is out of range -/
noncomputable def complete (T : TArith) : TArith :=
  open Classical in
  { T.toRArith.complete with
    sin := fun x => if Normal (Real.sin x) then T.sin x else Real.sin x
    cos := fun x => if Normal (Real.cos x) then T.cos x else Real.cos x
    arccos := fun x => if Normal (Real.arccos x) then T.arccos x else Real.arccos x }

theorem complete_accurate (hT : T.AccurateInRange u) (hu : 0 ≤ u) : T.complete.Accurate u where
  toAccurate := RArith.complete_accurate hT.toAccurateInRange hu
  sin x := by
    by_cases h : Normal (Real.sin x)
    · simpa [complete, h] using hT.sin x h
    · simp only [complete, h, if_false, sub_self, abs_zero]; positivity
  cos x := by
    by_cases h : Normal (Real.cos x)
    · simpa [complete, h] using hT.cos x h
    · simp only [complete, h, if_false, sub_self, abs_zero]; positivity
  arccos x hx := by
    by_cases h : Normal (Real.arccos x)
    · simpa [complete, h] using hT.arccos x hx h
    · simp only [complete, h, if_false, sub_self, abs_zero]; positivity

section

variable (hT : T.AccurateInRange u) (hu : 0 ≤ u) (hu1 : u ≤ 1 / 1000) {k : PhysConst} (hk : k.InRange) (hme : Mag (-20) 20 k.me) {s : KN}
  (hZ : Mag (-20) 20 s.Z) (hm : Mag (-20) 20 s.mc2) {E θ : ℝ} (hE0 : 0 < E) (hE : Mag (-60) 60 E) (hc : Mag (-100) 0 (Real.cos θ))
  (hs : Mag (-100) 0 (Real.sin θ)) (hx : (E / k.me + 1) * u ≤ 1 / 1000)

include hT hu1

theorem same_fl {a b : ℤ} {x y : ℝ} (h : Same a b x y) (ha : -1022 ≤ a) (hb : b ≤ 1023) : Same (a - 1) (b + 1) (T.fl x) (T.complete.fl y) :=
  h.fl hT.toAccurateInRange (hu1.trans (by norm_num)) ha hb

theorem same_sq {a b : ℤ} {x y : ℝ} (h : Same a b x y) (ha : -1022 ≤ a + a) (hb : b + b ≤ 1023) :
    Same (a + a - 1) (b + b + 1) (T.sq x) (T.complete.sq y) :=
  h.rsq hT.toAccurateInRange (hu1.trans (by norm_num)) ha hb

include hk hZ hm in
theorem scale_same : Same (-146) 146 (T.scale k s) (T.complete.scale k s) := by
  have a1 := same_sq hT hu1 (.refl hk.alpha) (by norm_num) (by norm_num)
  have a2 := same_fl hT hu1 ((Same.refl hZ).mul a1) (by norm_num) (by norm_num)
  have a3 := same_sq hT hu1 (.refl hk.hbarc) (by norm_num) (by norm_num)
  have a4 := same_fl hT hu1 (a2.mul a3) (by norm_num) (by norm_num)
  have a5 := same_fl hT hu1 ((Same.refl hm).mul (.refl hm)) (by norm_num) (by norm_num)
  exact (same_fl hT hu1 (a4.div a5) (by norm_num) (by norm_num)).mono (by norm_num) (by norm_num)

omit hT hu1 in
include hc in
theorem cos_same : T.cos θ = T.complete.cos θ := by
  have : Normal (Real.cos θ) := hc.normal (by norm_num) (by norm_num)
  simp only [complete, this, if_true]

include hs in
theorem sin_same : Same (-101) 1 (T.sin θ) (T.complete.sin θ) := by
  have h : Normal (Real.sin θ) := hs.normal (by norm_num) (by norm_num)
  have e : T.complete.sin θ = T.sin θ := by simp only [complete, h, if_true]
  refine ⟨e.symm, ?_⟩
  rw [e]
  refine (hs.close (y := T.sin θ) ((hT.sin θ h).trans ?_)).mono (by norm_num) (by norm_num)
  gcongr
  linarith

omit hu1 in
/-- one minus a computed cosine does not underflow -/
theorem one_sub_cos (θ : ℝ) : Mag (-53) 1 (1 - T.cos θ) ∧ 0 ≤ 1 - T.cos θ := by
  have h1 := abs_le.1 (hT.cosOne θ)
  refine ⟨?_, by linarith⟩
  by_cases h : 1 / 2 ≤ T.cos θ
  · obtain ⟨n, hn⟩ := hT.cosGrid θ h
    rcases eq_or_lt_of_le h1.2 with e | e
    · left; rw [e]; ring
    · refine Mag.of_bounds ?_ (by rw [zpow_one]; linarith)
      have h2 : (n : ℝ) < 2 ^ 53 := by
        rw [hn, div_lt_one (by positivity)] at e
        exact e
      have h3 : n + 1 ≤ 2 ^ 53 := by exact_mod_cast h2
      have h4 : (n : ℝ) + 1 ≤ 2 ^ 53 := by exact_mod_cast h3
      rw [hn, zpow_neg, show ((53 : ℤ)) = ((53 : ℕ) : ℤ) by norm_num, zpow_natCast, inv_eq_one_div, div_le_iff₀ (by positivity), sub_mul,
        div_mul_cancel₀ _ (by positivity)]
      linarith
  · refine Mag.of_bounds ?_ (by rw [zpow_one]; linarith)
    have : (2 : ℝ) ^ (-53 : ℤ) ≤ 1 / 2 := by norm_num
    have h2 := not_le.1 h
    exact this.trans (by linarith only [h2])

include hu hme hE0 hE hc in
theorem epOverE_same : Same (-87) 2 (T.epOverE k E θ) (T.complete.epOverE k E θ) := by
  have hB := complete_accurate hT hu
  have hq := one_sub_cos hT θ
  have e := cos_same (T := T) hc
  have b1 := same_fl hT hu1 ((Same.refl hE).div (.refl hme)) (by norm_num) (by norm_num)
  have b2 : Same (-53) 1 (1 - T.cos θ) (1 - T.complete.cos θ) := ⟨by rw [e], by rw [← e]; exact hq.1⟩
  have b3 := same_fl hT hu1 b2 (by norm_num) (by norm_num)
  have b4 := same_fl hT hu1 (b1.mul b3) (by norm_num) (by norm_num)
  have n1 : 0 ≤ T.complete.fl (E / k.me) := hB.fl.nonneg (by linarith) (div_pos hE0 k.me_pos).le
  have n2 : 0 ≤ T.complete.fl (1 - T.complete.cos θ) := hB.fl.nonneg (by linarith) (by rw [← e]; exact hq.2)
  have n3 : 0 ≤ T.complete.fl (T.complete.fl (E / k.me) * T.complete.fl (1 - T.complete.cos θ)) :=
    hB.fl.nonneg (by linarith) (mul_nonneg n1 n2)
  have b5 := same_fl hT hu1 (b4.one_add n3 (by norm_num)) (by norm_num) (by norm_num)
  have one : Same 0 0 (1 : ℝ) 1 := Same.num 0 0 (by norm_num) (by norm_num)
  exact (same_fl hT hu1 (one.div b5) (by norm_num) (by norm_num)).mono (by norm_num) (by norm_num)

include hu hk hme hZ hm hE0 hE hc hs hx in
theorem unpol_same : Same (-326) 248 (T.dOmegaUnpol k s E θ) (T.complete.dOmegaUnpol k s E θ) := by
  have hB := complete_accurate hT hu
  have hxp : 0 < E / k.me := div_pos hE0 k.me_pos
  have huv : u ≤ (E / k.me + 1) * u := by nlinarith
  have hr := epOverE_same hT hu hu1 hme hE0 hE hc
  have one : Same 0 0 (1 : ℝ) 1 := Same.num 0 0 (by norm_num) (by norm_num)
  have hre := epOverE_re hB hu hE0 hx le_rfl (θ := θ)
  have hp := EpOverE_pos' (k := k) (θ := θ) hE0
  have ht := sum_re hB hu hE0 hx le_rfl (θ := θ)
  have hsn := sinsq_re hB hu hx huv (θ := θ)
  have hsc := scale_same hT hu1 hk hZ hm
  have hpos : 0 < T.complete.epOverE k E θ := by
    unfold RE at hre
    rw [abs_of_pos hp] at hre
    have := (abs_le.1 hre).1
    nlinarith
  unfold TArith.dOmegaUnpol
  simp only
  generalize T.epOverE k E θ = r' at *
  generalize T.complete.epOverE k E θ = r'' at *
  have c1 := same_fl hT hu1 (one.div hr) (by norm_num) (by norm_num)
  have n1 : 0 ≤ T.complete.fl (1 / r'') := hB.fl.nonneg (by linarith) (by positivity)
  have c2 := same_fl hT hu1 (hr.add c1 hpos.le n1) (by norm_num) (by norm_num)
  have c3 := same_sq hT hu1 (sin_same hT hu1 hs) (by norm_num) (by norm_num)
  have h2 := two_le_add_inv hp
  have hs1 : Real.sin θ ^ 2 ≤ 1 := Real.sin_sq_le_one θ
  have hs0 : 0 ≤ Real.sin θ ^ 2 := sq_nonneg _
  generalize Real.sin θ ^ 2 = S at *
  generalize KN.EpOverE k E θ + 1 / KN.EpOverE k E θ = t at *
  generalize T.fl (r' + T.fl (1 / r')) = t' at *
  generalize T.complete.fl (r'' + T.complete.fl (1 / r'')) = t'' at *
  generalize T.sq (T.sin θ) = S' at *
  generalize T.complete.sq (T.complete.sin θ) = S'' at *
  have c4 : Same (-1) 90 (t' - S') (t'' - S'') := by
    refine ⟨by rw [c2.1, c3.1], ?_⟩
    unfold RE at ht hsn
    rw [abs_of_nonneg (by linarith : 0 ≤ t)] at ht
    rw [abs_of_nonneg hs0] at hsn
    have g1 := (abs_le.1 ht).1
    have g2 := (abs_le.1 hsn).2
    have g2' := (abs_le.1 hsn).1
    have g3 : t * ((E / k.me + 1) * u) ≤ t * (1 / 1000) := mul_le_mul_of_nonneg_left hx (by linarith)
    have g4 : S * ((E / k.me + 1) * u) ≤ 1 * (1 / 1000) := mul_le_mul hs1 hx (by positivity) zero_le_one
    have g5 : S * ((E / k.me + 1) * u) ≤ S * (1 / 1000) := mul_le_mul_of_nonneg_left hx hs0
    refine Mag.of_bounds ?_ ?_
    · have : (2 : ℝ) ^ (-1 : ℤ) = 1 / 2 := by norm_num
      rw [this]
      linarith
    · have h90 : t'' ≤ (2 : ℝ) ^ (90 : ℤ) := by
        rcases c2.2 with e | ⟨-, e⟩
        · rw [e]; positivity
        · exact (le_abs_self _).trans (e.trans (zpow_le_zpow_right₀ (by norm_num) (by norm_num)))
      have : 0 ≤ S'' := by linarith
      linarith
  have c5 := same_fl hT hu1 c4 (by norm_num) (by norm_num)
  have d1 := same_fl hT hu1 Same.pi (by norm_num) (by norm_num)
  have d2 := same_fl hT hu1 (d1.mul hsc) (by norm_num) (by norm_num)
  have d3 := same_fl hT hu1 (d2.mul hr) (by norm_num) (by norm_num)
  have d4 := same_fl hT hu1 (d3.mul hr) (by norm_num) (by norm_num)
  exact (same_fl hT hu1 (d4.mul c5) (by norm_num) (by norm_num)).mono (by norm_num) (by norm_num)

include hu hk hme hZ hm hE0 hE hc hs hx in
theorem dTheta_same : T.dTheta k s E θ = T.complete.dTheta k s E θ := by
  have h := unpol_same hT hu hu1 hk hme hZ hm hE0 hE hc hs hx
  exact (same_fl hT hu1 (h.mul (sin_same hT hu1 hs)) (by norm_num) (by norm_num)).1

theorem cos_same_mag {φ : ℝ} (hc : Mag (-100) 0 (Real.cos φ)) : Same (-101) 1 (T.cos φ) (T.complete.cos φ) := by
  have h : Normal (Real.cos φ) := hc.normal (by norm_num) (by norm_num)
  refine ⟨cos_same hc, ?_⟩
  rw [← cos_same hc]
  refine (hc.close (y := T.cos φ) ((hT.cos φ h).trans ?_)).mono (by norm_num) (by norm_num)
  gcongr
  linarith

include hu in
/-- the difference of a number near or above two and another one does not underflow -/
theorem sub_mag {y z : ℝ} (hy : Mag (-87) 89 y) (hz : Mag (-406) 8 z) (hz0 : 0 ≤ z) (h : 1.9 ≤ T.complete.fl y) :
    Mag (-53) 91 (T.complete.fl y - T.complete.fl z) := by
  have hB := complete_accurate hT hu
  have hny := hy.normal (by norm_num) (by norm_num)
  have hnz := hz.normal (by norm_num) (by norm_num)
  have ey : T.complete.fl y = T.fl y := if_pos hny
  have ez : T.complete.fl z = T.fl z := if_pos hnz
  have by' := hB.fl y
  have bz := hB.fl z
  have hyl := KN.Mag.le hy
  have hzl := KN.Mag.le hz
  rw [abs_of_nonneg hz0] at bz hzl
  have g1 : u * z ≤ 1 / 1000 * z := mul_le_mul_of_nonneg_right hu1 hz0
  have g2 : u * |y| ≤ 1 / 1000 * |y| := mul_le_mul_of_nonneg_right hu1 (abs_nonneg _)
  have bz' := abs_le.1 bz
  have by2 := abs_le.1 by'
  have hya := le_abs_self y
  have p89 : (2 : ℝ) ^ (89 : ℤ) = 618970019642690137449562112 := by norm_num
  have p91 : (2 : ℝ) ^ (91 : ℤ) = 2475880078570760549798248448 := by norm_num
  have p8 : (2 : ℝ) ^ (8 : ℤ) = 256 := by norm_num
  rw [p89] at hyl
  rw [p8] at hzl
  have up : |T.complete.fl y - T.complete.fl z| ≤ 2 ^ (91 : ℤ) := by
    rw [p91, abs_le]
    constructor <;> linarith only [bz'.1, bz'.2, by2.1, by2.2, g1, g2, hyl, hzl, hya, hz0, h]
  by_cases hh : z < 1 / 2
  · refine .inr ⟨?_, up⟩
    refine le_trans (by norm_num : (2 : ℝ) ^ (-53 : ℤ) ≤ 1) (le_trans ?_ (le_abs_self _))
    linarith only [h, hh, bz'.2, g1]
  · refine KN.Mag_of_grid ?_ up
    have hy1 : 1 ≤ |y| := by linarith only [h, by2.2, g2, hya]
    obtain ⟨n, hn⟩ := hT.grid y hny 0 (by rw [zpow_zero]; exact hy1)
    obtain ⟨m, hm⟩ := hT.grid z hnz (-1) (by rw [abs_of_nonneg hz0]; norm_num; linarith only [hh])
    obtain ⟨n', hn'⟩ := KN.grid_mono (c' := -53) (by norm_num) ⟨n, hn⟩
    refine ⟨n' - m, ?_⟩
    rw [ey, ez, hn', hm]
    push_cast
    norm_num
    ring

include hu hk hme hZ hm hE0 hE hc hs hx in
theorem pol_same {φ : ℝ} (hφ : Mag (-100) 0 (Real.cos φ)) : Same (-379) 245 (T.dOmega k s E θ φ) (T.complete.dOmega k s E θ φ) := by
  have hB := complete_accurate hT hu
  have hxp : 0 < E / k.me := div_pos hE0 k.me_pos
  have hr := epOverE_same hT hu hu1 hme hE0 hE hc
  have one : Same 0 0 (1 : ℝ) 1 := Same.num 0 0 (by norm_num) (by norm_num)
  have two : Same 1 1 (2 : ℝ) 2 := Same.num 1 1 (by norm_num) (by norm_num)
  have half : Same (-1) (-1) (0.5 : ℝ) 0.5 := Same.num (-1) (-1) (by norm_num) (by norm_num)
  have hre := epOverE_re hB hu hE0 hx le_rfl (θ := θ)
  have hp := EpOverE_pos' (k := k) (θ := θ) hE0
  have ht := sum_re hB hu hE0 hx le_rfl (θ := θ)
  have hsc := scale_same hT hu1 hk hZ hm
  have hpos : 0 < T.complete.epOverE k E θ := by
    unfold RE at hre
    rw [abs_of_pos hp] at hre
    have := (abs_le.1 hre).1
    nlinarith
  unfold TArith.dOmega
  simp only
  generalize T.epOverE k E θ = r' at *
  generalize T.complete.epOverE k E θ = r'' at *
  have c1 := same_fl hT hu1 (one.div hr) (by norm_num) (by norm_num)
  have n1 : 0 ≤ T.complete.fl (1 / r'') := hB.fl.nonneg (by linarith) (by positivity)
  have c2' := hr.add c1 hpos.le n1
  have c2 := same_fl hT hu1 c2' (by norm_num) (by norm_num)
  have c3 := same_sq hT hu1 (sin_same hT hu1 hs) (by norm_num) (by norm_num)
  have c4 := same_sq hT hu1 (cos_same_mag hT hu1 hφ) (by norm_num) (by norm_num)
  have n3 : ∀ x : ℝ, 0 ≤ T.complete.sq x := fun x => by
    have := hB.sq x
    rw [abs_of_nonneg (sq_nonneg x)] at this
    have h1 := (abs_le.1 this).1
    nlinarith [sq_nonneg x]
  have c5 := same_fl hT hu1 (two.mul c3) (by norm_num) (by norm_num)
  have n5 : 0 ≤ T.complete.fl (2 * T.complete.sq (T.complete.sin θ)) := hB.fl.nonneg (by linarith) (mul_nonneg zero_le_two (n3 _))
  have c6' := c5.mul c4
  have n6 := mul_nonneg n5 (n3 (T.complete.cos φ))
  have c6 := same_fl hT hu1 c6' (by norm_num) (by norm_num)
  have h2 := two_le_add_inv hp
  have hb : 1.9 ≤ T.complete.fl (r'' + T.complete.fl (1 / r'')) := by
    unfold RE at ht
    generalize KN.EpOverE k E θ + 1 / KN.EpOverE k E θ = t at *
    rw [abs_of_nonneg (by linarith : 0 ≤ t)] at ht
    have g1 := (abs_le.1 ht).1
    have g3 : t * ((E / k.me + 1) * u) ≤ t * (1 / 1000) := mul_le_mul_of_nonneg_left hx (by linarith)
    linarith
  have hd := sub_mag hT hu hu1 (c2'.2.mono (by norm_num) (by norm_num)) (c6'.2.mono (by norm_num) (by norm_num)) n6 hb
  have c7 := same_fl hT hu1 (⟨congrArg₂ (· - ·) c2.1 c6.1, hd⟩ : Same (-53) 91 _ _) (by norm_num) (by norm_num)
  have d2 := same_fl hT hu1 (half.mul hsc) (by norm_num) (by norm_num)
  have d3 := same_fl hT hu1 (d2.mul hr) (by norm_num) (by norm_num)
  have d4 := same_fl hT hu1 (d3.mul hr) (by norm_num) (by norm_num)
  exact (same_fl hT hu1 (d4.mul c7) (by norm_num) (by norm_num)).mono (by norm_num) (by norm_num)

end

end TArith

end Ries
