import Verif.Spec.ExponentRangePV
import Verif.Lemmas.ExponentRange
import Verif.Lemmas.RoundedPVErr

/-! # Magnitudes of intermediate results, pseudo-Voigt profiles -/

namespace Ries

open KN

variable {u : ℝ} {A : PArith}

/-- the operations of `A`, without rounding if the exact result is out of range -/
noncomputable def PArith.complete (A : PArith) : PArith :=
  open Classical in
  ⟨A.toRArith.complete, A.ln2, fun x y => if Normal (x ^ y) then A.pow x y else x ^ y⟩

theorem PArith.complete_accurate (hA : A.AccurateInRange u) (hu : 0 ≤ u) : A.complete.Accurate u where
  toAccurate := RArith.complete_accurate hA.toAccurateInRange hu
  ln2 := hA.ln2
  pow x y hx := by
    by_cases h : Normal (x ^ y)
    · simpa [PArith.complete, h] using hA.pow x y hx h
    · simp [PArith.complete, h]
      positivity

theorem Rel.nonneg' {u a b : ℝ} {n : ℕ} (hu1 : u < 1) (h : Rel u n a b) (hb : 0 ≤ b) : 0 ≤ a := by
  obtain ⟨θ, l, -, rfl⟩ := h
  exact mul_nonneg hb ((pow_pos (by linarith) n).le.trans l)

/-- a number with a limited number of digits is one, or not very close to one -/
theorem one_sub_mag {η : ℝ} {n : ℤ} (h : η = n * 2 ^ (-2 - 52 : ℤ)) (h0 : 0 ≤ η) (h1 : η ≤ 2) : Mag (-54) 0 (1 - η) := by
  have e2 : 1 - η = ((2 ^ 54 - n : ℤ) : ℝ) * 2 ^ (-54 : ℤ) := by
    rw [h]
    push_cast
    norm_num
    ring
  by_cases hz : (2 ^ 54 - n : ℤ) = 0
  · left
    rw [e2, hz]; simp
  · right
    constructor
    · rw [e2, abs_mul, abs_of_pos (by positivity : (0 : ℝ) < 2 ^ (-54 : ℤ))]
      have : (1 : ℝ) ≤ |((2 ^ 54 - n : ℤ) : ℝ)| := by exact_mod_cast Int.one_le_abs hz
      exact le_mul_of_one_le_left (by positivity) this
    · rw [zpow_zero, abs_le]
      constructor <;> linarith

/-- the sum of both components -/
theorem RArith.mix_same {R : RArith} (hR : R.AccurateInRange u) (hu : 0 ≤ u) (hu1 : u ≤ 1 / 2 ^ 21) {η s c er E : ℝ} (pη : 0 ≤ η)
    (mη : Mag (-54) 0 (1 - η)) (msη : Mag (-182) 180 η) (mss : Mag (-139) 119 s) (msc : Mag (-103) 121 c) (hE : Mag (-100) 60 (E - er))
    (hx : |R.complete.fl (-R.complete.sq (R.complete.fl (R.complete.fl (E - er) / s)) / 2)| ≤ 220) (hneg : η ≤ 1.01)
    (hG0 : 0 ≤ R.complete.normPdf er s E) (hGL : R.complete.normPdf er s E ≤ 3 * R.complete.cauchyPdf er c E) :
    Same (-660) 480 (R.fl (R.fl (R.fl (1 - η) * R.normPdf er s E) + R.fl (η * R.cauchyPdf er c E)))
      (R.complete.fl (R.complete.fl (R.complete.fl (1 - η) * R.complete.normPdf er s E) + R.complete.fl (η * R.complete.cauchyPdf er c E))) := by
  have hu1' : u ≤ 1 / 100 := hu1.trans (by norm_num)
  have hC := RArith.complete_accurate hR hu
  have sG := RArith.norm_same hR hu hu1 mss hE hx
  have sL := RArith.cauchy_same hR hu hu1 msc hE
  have sv := (Same.refl mη).fl hR hu1' (by norm_num) (by norm_num)
  have p1 := (sv.mul sG).fl hR hu1' (by norm_num) (by norm_num)
  have p2 := ((Same.refl msη).mul sL).fl hR hu1' (by norm_num) (by norm_num)
  have hL0 : 0 ≤ R.complete.cauchyPdf er c E := by linarith
  have pos : ∀ {x}, 0 ≤ x → 0 ≤ R.complete.fl x := fun hx => hC.fl.nonneg (by linarith) hx
  rcases le_total η 1 with h | h
  · have h1 := pos (mul_nonneg (pos (by linarith : 0 ≤ 1 - η)) hG0)
    have h2 := pos (mul_nonneg pη hL0)
    exact ((p1.add p2 h1 h2).fl hR hu1' (by norm_num) (by norm_num)).mono (by norm_num) (by norm_num)
  · have hsum : Same (-644) 289 (R.fl (R.fl (1 - η) * R.normPdf er s E) + R.fl (η * R.cauchyPdf er c E))
        (R.complete.fl (R.complete.fl (1 - η) * R.complete.normPdf er s E) + R.complete.fl (η * R.complete.cauchyPdf er c E)) := by
      refine ⟨by rw [p1.1, p2.1], (p2.2.close ?_).mono (by norm_num) (by norm_num)⟩
      have f1 := hC.fl (1 - η)
      have f2 := hC.fl (R.complete.fl (1 - η) * R.complete.normPdf er s E)
      have f3 := hC.fl (η * R.complete.cauchyPdf er c E)
      generalize R.complete.fl (η * R.complete.cauchyPdf er c E) = q at *
      generalize R.complete.fl (R.complete.fl (1 - η) * R.complete.normPdf er s E) = p at *
      generalize R.complete.fl (1 - η) = v at *
      generalize R.complete.normPdf er s E = G at *
      generalize R.complete.cauchyPdf er c E = L at *
      rw [add_sub_cancel_right]
      have a1 : |v| ≤ 0.02 := by
        have : |1 - η| ≤ 0.01 := by rw [abs_le]; constructor <;> linarith
        have h3 : u * |1 - η| ≤ 0.01 * 0.01 := mul_le_mul (by linarith) this (abs_nonneg _) (by norm_num)
        have h4 : |v| ≤ |v - (1 - η)| + |1 - η| := by simpa using abs_add_le (v - (1 - η)) (1 - η)
        linarith
      have a2 : |v * G| ≤ 0.06 * L := by
        rw [abs_mul, abs_of_nonneg hG0]
        calc |v| * G ≤ 0.02 * (3 * L) := mul_le_mul a1 hGL hG0 (by norm_num)
          _ = _ := by ring
      have a3 : |p| ≤ 0.07 * L := by
        have h3 : u * |v * G| ≤ 0.01 * (0.06 * L) := mul_le_mul (by linarith) a2 (abs_nonneg _) (by norm_num)
        have h4 : |p| ≤ |p - v * G| + |v * G| := by simpa using abs_add_le (p - v * G) (v * G)
        linarith
      have a4 : L ≤ η * L := le_mul_of_one_le_left hL0 h
      have a5 : u * |η * L| ≤ 0.01 * (η * L) := by
        rw [abs_of_nonneg (by linarith)]
        exact mul_le_mul_of_nonneg_right (by linarith) (by linarith)
      have a6 := (abs_le.1 (f3.trans a5)).1
      have a7 := le_abs_self q
      linarith
    exact (hsum.fl hR hu1' (by norm_num) (by norm_num)).mono (by norm_num) (by norm_num)

section
variable (hA : A.AccurateInRange u) (hu : 0 ≤ u) (hu1 : u ≤ 1 / 2 ^ 21)
include hA hu hu1

theorem PArith.gaussFactor_same : Same (-2) 3 A.gaussFactor A.complete.gaussFactor ∧ 0 ≤ A.complete.gaussFactor := by
  have hu1' : u ≤ 1 / 100 := hu1.trans (by norm_num)
  have hR := hA.toAccurateInRange
  have hB := PArith.complete_accurate hA hu
  have l1 := Real.log_two_gt_d9
  have l2 := Real.log_two_lt_d9
  have hln : 0.5 ≤ A.ln2 ∧ A.ln2 ≤ 1 := by
    have := abs_le.1 hA.ln2
    constructor <;> nlinarith
  have h1 : Same (2 * (-1)) (2 * 0) A.ln2 A.ln2 := (Same.num (x := A.ln2) (-1) 0 (by norm_num; linarith) (by norm_num; linarith)).mono (by norm_num) (by norm_num)
  have h2 := Same.rsqrt (a := -1) (b := 0) hR hu1' h1 (by linarith) (by norm_num) (by norm_num)
  have h3 := ((Same.num (x := 2) 1 1 (by norm_num) (by norm_num)).mul h2).fl hR hu1' (by norm_num) (by norm_num)
  refine ⟨h3.mono (by norm_num) (by norm_num), ?_⟩
  have := (PArith.gaussFactor_rel hB hu (by linarith)).pos (by linarith) (mul_pos two_pos sqrt_log_two_pos)
  exact this.le

theorem PArith.base_same {g g' l : ℝ} (hg : Same (-84) 85 g g') (hg0 : 0 ≤ g') (hl : Mag (-81) 81 l) (hl0 : 0 ≤ l) :
    Same (-440) 455 (A.base g l) (A.complete.base g' l) := by
  have hu1' : u ≤ 1 / 100 := hu1.trans (by norm_num)
  have hR := hA.toAccurateInRange
  have hB := PArith.complete_accurate hA hu
  have hpos : ∀ {x}, 0 ≤ x → 0 ≤ A.toRArith.complete.fl x := fun hx => hB.fl.nonneg (by linarith) hx
  have hl : Same (-81) 81 l l := .refl hl
  have g2 := (hg.mul hg).fl hR hu1' (by norm_num) (by norm_num)
  have g4 := (g2.mul g2).fl hR hu1' (by norm_num) (by norm_num)
  have l2 := (hl.mul hl).fl hR hu1' (by norm_num) (by norm_num)
  have l3 := (l2.mul hl).fl hR hu1' (by norm_num) (by norm_num)
  have l4 := (l2.mul l2).fl hR hu1' (by norm_num) (by norm_num)
  have c2 := (Same.num (x := 2.69269) 1 2 (by norm_num) (by norm_num)).fl hR hu1' (by norm_num) (by norm_num)
  have c3 := (Same.num (x := 2.42843) 1 2 (by norm_num) (by norm_num)).fl hR hu1' (by norm_num) (by norm_num)
  have c4 := (Same.num (x := 4.47163) 2 3 (by norm_num) (by norm_num)).fl hR hu1' (by norm_num) (by norm_num)
  have c5 := (Same.num (x := 0.07842) (-4) (-3) (by norm_num) (by norm_num)).fl hR hu1' (by norm_num) (by norm_num)
  have t1 := (g4.mul hg).fl hR hu1' (by norm_num) (by norm_num)
  have t2 := (((c2.mul g4).fl hR hu1' (by norm_num) (by norm_num)).mul hl).fl hR hu1' (by norm_num) (by norm_num)
  have t3 := (((((c3.mul g2).fl hR hu1' (by norm_num) (by norm_num)).mul hg).fl hR hu1' (by norm_num) (by norm_num)).mul l2).fl hR hu1'
    (by norm_num) (by norm_num)
  have t4 := (((c4.mul g2).fl hR hu1' (by norm_num) (by norm_num)).mul l3).fl hR hu1' (by norm_num) (by norm_num)
  have t5 := (((c5.mul hg).fl hR hu1' (by norm_num) (by norm_num)).mul l4).fl hR hu1' (by norm_num) (by norm_num)
  have t6 := (l4.mul hl).fl hR hu1' (by norm_num) (by norm_num)
  have pg2 := hpos (mul_nonneg hg0 hg0)
  have pg4 := hpos (mul_nonneg pg2 pg2)
  have pl2 := hpos (mul_nonneg hl0 hl0)
  have pl3 := hpos (mul_nonneg pl2 hl0)
  have pl4 := hpos (mul_nonneg pl2 pl2)
  have p1 := hpos (mul_nonneg pg4 hg0)
  have p2 := hpos (mul_nonneg (hpos (mul_nonneg (hpos (by norm_num : (0 : ℝ) ≤ 2.69269)) pg4)) hl0)
  have p3 := hpos (mul_nonneg (hpos (mul_nonneg (hpos (mul_nonneg (hpos (by norm_num : (0 : ℝ) ≤ 2.42843)) pg2)) hg0)) pl2)
  have p4 := hpos (mul_nonneg (hpos (mul_nonneg (hpos (by norm_num : (0 : ℝ) ≤ 4.47163)) pg2)) pl3)
  have p5 := hpos (mul_nonneg (hpos (mul_nonneg (hpos (by norm_num : (0 : ℝ) ≤ 0.07842)) hg0)) pl4)
  have p6 := hpos (mul_nonneg pl4 hl0)
  have s1 := (t1.add t2 p1 p2).fl hR hu1' (by norm_num) (by norm_num)
  have q1 := hpos (add_nonneg p1 p2)
  have s2 := (s1.add t3 q1 p3).fl hR hu1' (by norm_num) (by norm_num)
  have q2 := hpos (add_nonneg q1 p3)
  have s3 := (s2.add t4 q2 p4).fl hR hu1' (by norm_num) (by norm_num)
  have q3 := hpos (add_nonneg q2 p4)
  have s4 := (s3.add t5 q3 p5).fl hR hu1' (by norm_num) (by norm_num)
  have q4 := hpos (add_nonneg q3 p5)
  have s5 := (s4.add t6 q4 p6).fl hR hu1' (by norm_num) (by norm_num)
  exact s5.mono (by norm_num) (by norm_num)

theorem PArith.bigGamma_same {g g' l : ℝ} (hg : Same (-84) 85 g g') (hg0 : 0 ≤ g') (hl : Mag (-81) 81 l) (hl0 : 0 ≤ l)
    (hpos : 0 < A.complete.base g' l) : Same (-90) 93 (A.bigGamma g l) (A.complete.bigGamma g' l) := by
  have hu1' : u ≤ 1 / 100 := hu1.trans (by norm_num)
  have hR := hA.toAccurateInRange
  have hb := PArith.base_same hA hu hu1 hg hg0 hl hl0
  have he := (Same.num (x := 0.2) (-3) (-2) (by norm_num) (by norm_num)).fl hR hu1' (by norm_num) (by norm_num)
  have hB := PArith.complete_accurate hA hu
  set b := A.complete.base g' l with hbdef
  set e := A.complete.fl 0.2 with hedef
  have he2 : |e - 0.2| ≤ 0.001 := by
    have := hB.fl 0.2
    rw [abs_of_pos (by norm_num : (0 : ℝ) < 0.2)] at this
    have h3 : u ≤ 1 / 2097152 := hu1.trans (by norm_num)
    refine this.trans ?_
    nlinarith
  obtain ⟨e1, e2⟩ := abs_le.1 he2
  have hm : Mag (-89) 92 (b ^ e) := by
    rcases hb.2 with h | ⟨h1, h2⟩
    · rw [h] at hpos; exact absurd hpos (lt_irrefl _)
    rw [abs_of_pos hpos] at h1 h2
    refine .of_bounds ?_ ?_
    · calc (2 : ℝ) ^ (-89 : ℤ) = (2 : ℝ) ^ ((-89 : ℤ) : ℝ) := (Real.rpow_intCast _ _).symm
        _ ≤ (2 : ℝ) ^ (((-440 : ℤ) : ℝ) * e) := by
          refine Real.rpow_le_rpow_of_exponent_le (by norm_num) ?_
          push_cast
          linarith
        _ = ((2 : ℝ) ^ (-440 : ℤ)) ^ e := by rw [Real.rpow_mul (by norm_num), Real.rpow_intCast]
        _ ≤ b ^ e := Real.rpow_le_rpow (by positivity) h1 (by linarith)
    · calc b ^ e ≤ ((2 : ℝ) ^ (455 : ℤ)) ^ e := Real.rpow_le_rpow hpos.le h2 (by linarith)
        _ = (2 : ℝ) ^ (((455 : ℤ) : ℝ) * e) := by rw [Real.rpow_mul (by norm_num), Real.rpow_intCast]
        _ ≤ (2 : ℝ) ^ ((92 : ℤ) : ℝ) := by
          refine Real.rpow_le_rpow_of_exponent_le (by norm_num) ?_
          push_cast
          linarith
        _ = (2 : ℝ) ^ (92 : ℤ) := Real.rpow_intCast _ _
  have hn := hm.normal (by norm_num) (by norm_num)
  have e3 : A.complete.bigGamma g' l = A.pow b e := if_pos hn
  have e4 : A.bigGamma g l = A.pow b e := by
    show A.pow (A.base g l) (A.fl 0.2) = _
    rw [hb.1]
    congr 1
    exact he.1
  rw [e3, e4]
  refine .refl ?_
  refine (hm.close ?_).mono (by norm_num) (by norm_num)
  have := hA.pow b e hpos hn
  rw [abs_of_pos (Real.rpow_pos_of_pos hpos e)]
  refine this.trans (mul_le_mul_of_nonneg_right (by linarith) (Real.rpow_pos_of_pos hpos e).le)

theorem PArith.eta_same {l l₀ gam gam' gam₀ : ℝ} {N M : ℕ} (hl : Mag (-81) 81 l) (hgam : Same (-90) 93 gam gam') (hl0 : 0 ≤ l₀)
    (hle : l₀ ≤ gam₀) (hg : 0 < gam₀) (rl : Rel u N l l₀) (rg : Rel u M gam' gam₀) (hQ : ((3 * N + 3 * M + 10 : ℕ) : ℝ) * u ≤ 1 / 200) :
    Same (-182) 180 (A.eta l gam) (A.complete.eta l gam') ∧ 0 ≤ A.complete.eta l gam' ∧ Mag (-54) 0 (1 - A.complete.eta l gam') := by
  have hu1' : u ≤ 1 / 100 := hu1.trans (by norm_num)
  have hu0 : u < 1 := by linarith
  have hR := hA.toAccurateInRange
  have hB := RArith.complete_accurate hA.toAccurateInRange hu
  have hl : Same (-81) 81 l l := .refl hl
  -- magnitudes
  have l2 := (hl.mul hl).fl hR hu1' (by norm_num) (by norm_num)
  have l3 := (l2.mul hl).fl hR hu1' (by norm_num) (by norm_num)
  have inv := ((Same.num (x := 1) 0 0 (by norm_num) (by norm_num)).div hgam).fl hR hu1' (by norm_num) (by norm_num)
  have inv2 := (inv.mul inv).fl hR hu1' (by norm_num) (by norm_num)
  have c1 := (Same.num (x := 1.36603) 0 1 (by norm_num) (by norm_num)).fl hR hu1' (by norm_num) (by norm_num)
  have c2 := (Same.num (x := 0.47719) (-2) (-1) (by norm_num) (by norm_num)).fl hR hu1' (by norm_num) (by norm_num)
  have c3 := (Same.num (x := 0.11116) (-4) (-3) (by norm_num) (by norm_num)).fl hR hu1' (by norm_num) (by norm_num)
  have ma := (((c1.mul hl).fl hR hu1' (by norm_num) (by norm_num)).mul inv).fl hR hu1' (by norm_num) (by norm_num)
  have mb := (((c2.mul l2).fl hR hu1' (by norm_num) (by norm_num)).mul inv2).fl hR hu1' (by norm_num) (by norm_num)
  have mc := (((((c3.mul l3).fl hR hu1' (by norm_num) (by norm_num)).mul inv2).fl hR hu1' (by norm_num) (by norm_num)).mul inv).fl hR hu1'
    (by norm_num) (by norm_num)
  -- values
  have r0 : ∀ x : ℝ, Rel u 0 x x := fun x => Rel.refl hu hu0 x
  have rc : ∀ x : ℝ, Rel u 1 (A.toRArith.complete.fl x) x := fun x => (r0 x).round hB.fl hu hu0
  have k2 := (rl.mul hu0 rl).round hB.fl hu hu0
  have k3 := (k2.mul hu0 rl).round hB.fl hu hu0
  have ki := ((r0 1).div hu0 rg).round hB.fl hu hu0
  have ki2 := (ki.mul hu0 ki).round hB.fl hu hu0
  have ra := (((((rc 1.36603).mul hu0 rl).round hB.fl hu hu0).mul hu0 ki).round hB.fl hu hu0).mono hu hu0 (m := 3 * N + 3 * M + 10) (by omega)
  have rb := (((((rc 0.47719).mul hu0 k2).round hB.fl hu hu0).mul hu0 ki2).round hB.fl hu hu0).mono hu hu0 (m := 3 * N + 3 * M + 10) (by omega)
  have rcc := (((((((rc 0.11116).mul hu0 k3).round hB.fl hu hu0).mul hu0 ki2).round hB.fl hu hu0).mul hu0 ki).round hB.fl hu hu0).mono hu hu0
    (m := 3 * N + 3 * M + 10) (by omega)
  have ea := ra.abs_le hu hQ
  have eb := rb.abs_le hu hQ
  have ec := rcc.abs_le hu hQ
  set x := l₀ / gam₀ with hx
  have hx0 : 0 ≤ x := div_nonneg hl0 hg.le
  have hx1 : x ≤ 1 := (div_le_one hg).2 hle
  have xa : 1.36603 * l₀ * (1 / gam₀) = 1.36603 * x := by rw [hx]; ring
  have xb : 0.47719 * (l₀ * l₀) * (1 / gam₀ * (1 / gam₀)) = 0.47719 * x ^ 2 := by rw [hx]; ring
  have xc : 0.11116 * (l₀ * l₀ * l₀) * (1 / gam₀ * (1 / gam₀)) * (1 / gam₀) = 0.11116 * x ^ 3 := by rw [hx]; ring
  rw [xa, abs_of_nonneg (show 0 ≤ 1.36603 * x by positivity)] at ea
  rw [xb, abs_of_nonneg (show 0 ≤ 0.47719 * x ^ 2 by positivity)] at eb
  rw [xc, abs_of_nonneg (show 0 ≤ 0.11116 * x ^ 3 by positivity)] at ec
  have hQ' : 1.01 * ((3 * N + 3 * M + 10 : ℕ) : ℝ) * u ≤ 0.01 := by linarith
  have hx2 : x ^ 2 ≤ x := by nlinarith
  have hx3 : x ^ 3 ≤ x := by nlinarith [mul_nonneg hx0 hx0]
  have hx20 : 0 ≤ x ^ 2 := by positivity
  have hx30 : 0 ≤ x ^ 3 := by positivity
  have ea := ea.trans (mul_le_mul_of_nonneg_right hQ' (show 0 ≤ 1.36603 * x by positivity))
  have eb := eb.trans (mul_le_mul_of_nonneg_right hQ' (show 0 ≤ 0.47719 * x ^ 2 by positivity))
  have ec := ec.trans (mul_le_mul_of_nonneg_right hQ' (show 0 ≤ 0.11116 * x ^ 3 by positivity))
  obtain ⟨a1, a2⟩ := abs_le.1 ea
  obtain ⟨b1, b2⟩ := abs_le.1 eb
  obtain ⟨d1, d2⟩ := abs_le.1 ec
  have eB : A.complete.eta l gam' = A.toRArith.complete.fl (A.toRArith.complete.fl (A.toRArith.complete.fl
      (A.toRArith.complete.fl (A.toRArith.complete.fl 1.36603 * l) * A.toRArith.complete.fl (1 / gam')) - A.toRArith.complete.fl
      (A.toRArith.complete.fl (A.toRArith.complete.fl 0.47719 * A.toRArith.complete.fl (l * l)) * A.toRArith.complete.fl
      (A.toRArith.complete.fl (1 / gam') * A.toRArith.complete.fl (1 / gam')))) + A.toRArith.complete.fl (A.toRArith.complete.fl
      (A.toRArith.complete.fl (A.toRArith.complete.fl 0.11116 * A.toRArith.complete.fl (A.toRArith.complete.fl (l * l) * l)) *
      A.toRArith.complete.fl (A.toRArith.complete.fl (1 / gam') * A.toRArith.complete.fl (1 / gam'))) * A.toRArith.complete.fl (1 / gam'))) := rfl
  rw [eB]
  clear eB
  generalize A.toRArith.complete.fl (A.toRArith.complete.fl (A.toRArith.complete.fl 1.36603 * l) * A.toRArith.complete.fl (1 / gam')) = a at *
  generalize A.toRArith.complete.fl (A.toRArith.complete.fl (A.toRArith.complete.fl 0.47719 * A.toRArith.complete.fl (l * l)) *
    A.toRArith.complete.fl (A.toRArith.complete.fl (1 / gam') * A.toRArith.complete.fl (1 / gam'))) = b at *
  generalize A.toRArith.complete.fl (A.toRArith.complete.fl (A.toRArith.complete.fl (A.toRArith.complete.fl 0.11116 *
    A.toRArith.complete.fl (A.toRArith.complete.fl (l * l) * l)) * A.toRArith.complete.fl (A.toRArith.complete.fl (1 / gam') *
    A.toRArith.complete.fl (1 / gam'))) * A.toRArith.complete.fl (1 / gam')) = c at *
  have hd : Same (-179) 177 _ (a - b) := ⟨congrArg₂ (· - ·) ma.1 mb.1, (ma.2.close (by
    rw [show a - b - a = -b by ring, abs_neg, abs_of_nonneg (by linarith), abs_of_nonneg (by linarith)]
    linarith)).mono (by norm_num) (by norm_num)⟩
  have hfd := hd.fl hR hu1' (by norm_num) (by norm_num)
  have vd := hB.fl (a - b)
  rw [abs_of_nonneg (by linarith : 0 ≤ a - b)] at vd
  have hu' : u * (a - b) ≤ 0.01 * (a - b) := mul_le_mul_of_nonneg_right (by linarith) (by linarith)
  obtain ⟨v1, v2⟩ := abs_le.1 (vd.trans hu')
  generalize A.toRArith.complete.fl (a - b) = d at *
  have hs : Same (-181) 179 _ (d + c) := ⟨congrArg₂ (· + ·) hfd.1 mc.1, (hfd.2.close (by
    rw [show d + c - d = c by ring, abs_of_nonneg (by linarith), abs_of_nonneg (by linarith)]
    linarith)).mono (by norm_num) (by norm_num)⟩
  have hfs := hs.fl hR hu1' (by norm_num) (by norm_num)
  have hy0 : 0 ≤ d + c := by linarith
  have hy1 : d + c ≤ 1.6 := by linarith
  have vy := hB.fl (d + c)
  rw [abs_of_nonneg hy0] at vy
  have hu2 : u * (d + c) ≤ 0.01 * (d + c) := mul_le_mul_of_nonneg_right (by linarith) hy0
  obtain ⟨w1, w2⟩ := abs_le.1 (vy.trans hu2)
  refine ⟨hfs.mono (by norm_num) (by norm_num), by linarith, ?_⟩
  by_cases hq : d + c < 1 / 4
  · refine Mag.mono (a := -1) (b := 0) (.of_bounds ?_ ?_) (by norm_num) le_rfl
    · norm_num; linarith
    · norm_num; linarith
  · have hn := hs.2.normal (by norm_num) (by norm_num)
    have e : A.toRArith.complete.fl (d + c) = A.fl (d + c) := if_pos hn
    obtain ⟨n, hn'⟩ := hA.grid _ hn (-2) (by rw [abs_of_nonneg hy0]; norm_num; linarith)
    rw [e] at w1 w2 ⊢
    exact one_sub_mag hn' (by linarith only [w1, hy0]) (by linarith only [w2, hy1])

theorem PArith.pvPdf_same {w w' d d' er E : ℝ} {N m : ℕ} (hw : 0 ≤ w) (hd : 0 < d) (rw' : Rel u N w' w) (rd : Rel u 8 d' d)
    (hm : |Real.log (mkPV er w d).bigGamma| ≤ m) (hN : (50 * N + 26 * m + 670 : ℝ) * u ≤ 1 / 200) (Mw : Mag (-81) 81 w')
    (Md : Mag (-81) 81 d') (hE : Mag (-100) 60 (E - er)) (ht : ((E - er) / (mkPV er w d).normScale) ^ 2 / 2 ≤ 200) :
    ∃ p, A.pvPdf er w' d' E = .fin p ∧ A.complete.pvPdf er w' d' E = .fin p ∧ Mag (-660) 480 p := by
  have hNn : (0 : ℝ) ≤ N := Nat.cast_nonneg _
  have hmn : (0 : ℝ) ≤ m := Nat.cast_nonneg _
  have hNu : 0 ≤ N * u := by positivity
  have hmu : 0 ≤ m * u := by positivity
  have hN' : 50 * (N * u) + 26 * (m * u) + 670 * u ≤ 1 / 200 := by linarith
  have hu1' : u ≤ 1 / 100 := by linarith
  have hu0 : u < 1 := by linarith
  have hR := hA.toAccurateInRange
  have hB := PArith.complete_accurate hA hu
  have hC := RArith.complete_accurate hR hu
  have hok : PV.Ok w d := ⟨hw, hd.le, .inr hd⟩
  have hgp : 0 < 2 * Real.sqrt (Real.log 2) * d := mul_pos (mul_pos two_pos sqrt_log_two_pos) hd
  have hpos : 0 < pvBase (2 * Real.sqrt (Real.log 2) * d) w := (pow_pos hgp 5).trans_le (pvBase_ge_left hgp.le hw)
  have rgf := PArith.gaussFactor_rel hB hu hu0
  have rg := (rgf.mul hu0 rd).round hC.fl hu hu0
  have rgam := PArith.bigGamma_rel hB hu hgp.le hw hpos rg rw' hm (by push_cast; linarith)
  have hgam : 0 < pvGamma (2 * Real.sqrt (Real.log 2) * d) w := hok.gamma_pos (er := er)
  have hle := pvGamma_ge_right hgp.le hw
  have hw' := Rel.nonneg' hu0 rw' hw
  have hd' := Rel.nonneg' hu0 rd hd.le
  -- magnitudes
  obtain ⟨sgf, pgf⟩ := PArith.gaussFactor_same hA hu hu1
  have sg := (sgf.mul (.refl Md)).fl hR hu1' (by norm_num) (by norm_num)
  have pg : 0 ≤ A.toRArith.complete.fl (A.complete.gaussFactor * d') := hC.fl.nonneg (by linarith) (mul_nonneg pgf hd')
  have pb : 0 < A.complete.base (A.toRArith.complete.fl (A.complete.gaussFactor * d')) w' :=
    (PArith.base_rel hB hu hu0 hgp.le hw rg rw').pos hu0 hpos
  have sgam := PArith.bigGamma_same hA hu hu1 (sg.mono (by norm_num) (by norm_num)) pg Mw hw' pb
  have hQ : ((3 * N + 3 * (N + m + 20) + 10 : ℕ) : ℝ) * u ≤ 1 / 200 := by push_cast; linarith
  obtain ⟨sη, pη, mη⟩ := PArith.eta_same hA hu hu1 Mw sgam hw hle hgam rw' rgam hQ
  have eη := PArith.eta_err hB hu hw hle hgam rw' rgam hQ
  have r2 := RArith.sqrt_rel hC hu hu0 (by norm_num : (0 : ℝ) ≤ 2) (Rel.refl (n := 0) hu hu0 2)
  have rs := (((rgam.div hu0 rgf).round hC.fl hu hu0).div hu0 r2).round hC.fl hu hu0
  have rs' := rs.mono hu hu0 (m := N + m + 26) (by omega)
  have r5 : Rel u 0 (0.5 : ℝ) 0.5 := Rel.refl hu hu0 _
  have rc := (r5.mul hu0 ((r5.mul hu0 rgam).round hC.fl hu hu0)).round hC.fl hu hu0
  have hs : 0 < pvGamma (2 * Real.sqrt (Real.log 2) * d) w / (2 * Real.sqrt (Real.log 2)) / Real.sqrt 2 := hok.normScale_pos (er := er)
  have hc : 0 < 0.5 * (0.5 * pvGamma (2 * Real.sqrt (Real.log 2) * d) w) := hok.cauchyScale_pos (er := er)
  have hs' := rs.pos hu0 hs
  have hc' := rc.pos hu0 hc
  have q2 := Same.rsqrt (a := 0) (b := 1) hR hu1' ((Same.num (x := 2) 1 1 (by norm_num) (by norm_num)).mono (by norm_num) (by norm_num))
    (by norm_num) (by norm_num) (by norm_num)
  have ss := (((sgam.div sgf).fl hR hu1' (by norm_num) (by norm_num)).div q2).fl hR hu1' (by norm_num) (by norm_num)
  have s5 := Same.num (x := 0.5) (-1) (-1) (by norm_num) (by norm_num)
  have sc := (s5.mul ((s5.mul sgam).fl hR hu1' (by norm_num) (by norm_num))).fl hR hu1' (by norm_num) (by norm_num)
  obtain ⟨δ, hδ, rn⟩ := RArith.norm_rel (l := er) hC hu hu1' rs' (by push_cast; linarith) E
  have rL := (RArith.cauchy_rel (l := er) hC hu hu0 hc rc E).mono hu hu0 (m := 3 * N + 3 * m + 76) (by omega)
  have eL := rL.abs_le hu (by push_cast; linarith)
  have en := rn.abs_le hu (by push_cast; linarith)
  have hηb := hok.eta_bounds (er := er)
  have hgc := gauss_le_cauchy hgam er E
  have ht' : ((E - er) / (pvGamma (2 * Real.sqrt (Real.log 2) * d) w / (2 * Real.sqrt (Real.log 2)) / Real.sqrt 2)) ^ 2 / 2 ≤ 200 := ht
  have hηb' : pvEta w (pvGamma (2 * Real.sqrt (Real.log 2) * d) w) ≤ 1 := hηb.2
  have hηb0 : 0 ≤ pvEta w (pvGamma (2 * Real.sqrt (Real.log 2) * d) w) := hηb.1
  have e1 : A.pvPdf er w' d' E = if 0 < A.fl (A.fl (A.bigGamma (A.fl (A.gaussFactor * d')) w' / A.gaussFactor) / A.sqrt 2) ∧
      0 < A.fl (0.5 * A.fl (0.5 * A.bigGamma (A.fl (A.gaussFactor * d')) w')) then
      .fin (A.fl (A.fl (A.fl (1 - A.eta w' (A.bigGamma (A.fl (A.gaussFactor * d')) w')) *
        A.normPdf er (A.fl (A.fl (A.bigGamma (A.fl (A.gaussFactor * d')) w' / A.gaussFactor) / A.sqrt 2)) E) +
        A.fl (A.eta w' (A.bigGamma (A.fl (A.gaussFactor * d')) w') *
          A.cauchyPdf er (A.fl (0.5 * A.fl (0.5 * A.bigGamma (A.fl (A.gaussFactor * d')) w'))) E))) else .nan := rfl
  have e2 : A.complete.pvPdf er w' d' E = .fin (A.toRArith.complete.fl (A.toRArith.complete.fl (A.toRArith.complete.fl (1 - A.complete.eta w'
        (A.complete.bigGamma (A.toRArith.complete.fl (A.complete.gaussFactor * d')) w')) * A.toRArith.complete.normPdf er
        (A.toRArith.complete.fl (A.toRArith.complete.fl (A.complete.bigGamma (A.toRArith.complete.fl (A.complete.gaussFactor * d')) w' /
          A.complete.gaussFactor) / A.toRArith.complete.sqrt 2)) E) +
        A.toRArith.complete.fl (A.complete.eta w' (A.complete.bigGamma (A.toRArith.complete.fl (A.complete.gaussFactor * d')) w') *
          A.toRArith.complete.cauchyPdf er (A.toRArith.complete.fl (0.5 * A.toRArith.complete.fl (0.5 *
            A.complete.bigGamma (A.toRArith.complete.fl (A.complete.gaussFactor * d')) w'))) E))) := if_pos ⟨hs', hc'⟩
  rw [e1, ss.1, sc.1, sη.1, e2]
  clear e1 e2
  have mss := ss.2
  have msc := sc.2
  have msη := sη.2
  clear ss sc sη sgam sg sgf rg rgf rgam pb
  generalize A.complete.eta w' (A.complete.bigGamma (A.toRArith.complete.fl (A.complete.gaussFactor * d')) w') = η at *
  generalize A.toRArith.complete.fl (A.toRArith.complete.fl (A.complete.bigGamma (A.toRArith.complete.fl (A.complete.gaussFactor * d')) w' /
          A.complete.gaussFactor) / A.toRArith.complete.sqrt 2) = s at *
  generalize A.toRArith.complete.fl (0.5 * A.toRArith.complete.fl (0.5 *
            A.complete.bigGamma (A.toRArith.complete.fl (A.complete.gaussFactor * d')) w')) = c at *
  have hN3 : ((2 * (N + m + 26) + 10 : ℕ) : ℝ) * u ≤ 1 / 1000 := by push_cast; linarith
  have hδ1 : |δ| ≤ 0.21 := by
    refine hδ.trans ?_
    calc _ ≤ 1.01 * (1 / 1000) * (200 : ℝ) := by
          refine mul_le_mul ?_ ht' (by positivity) (by norm_num)
          rw [mul_assoc]
          exact mul_le_mul_of_nonneg_left hN3 (by norm_num)
      _ ≤ _ := by norm_num
  have hexp : Real.exp δ ≤ 1.3 := by
    have h1 := Real.abs_exp_sub_one_sub_id_le (x := δ) (by linarith)
    have h2 : δ ^ 2 ≤ 0.21 ^ 2 := by
      rw [← sq_abs]; exact pow_le_pow_left₀ (abs_nonneg _) hδ1 2
    have h3 := (abs_le.1 h1).2
    have h4 := le_abs_self δ
    norm_num at h2
    linarith
  have hg0 : 0 ≤ normPdf er (pvGamma (2 * Real.sqrt (Real.log 2) * d) w / (2 * Real.sqrt (Real.log 2)) / Real.sqrt 2) E := by
    unfold normPdf; positivity
  have hL0 : 0 ≤ cauchyPdf er (0.5 * (0.5 * pvGamma (2 * Real.sqrt (Real.log 2) * d) w)) E := by
    have := Real.pi_pos
    unfold cauchyPdf; positivity
  have hG' := Rel.nonneg' hu0 rn (mul_nonneg hg0 (Real.exp_pos δ).le)
  have hx : |A.toRArith.complete.fl (-A.toRArith.complete.sq (A.toRArith.complete.fl (A.toRArith.complete.fl (E - er) / s)) / 2)| ≤ 220 := by
    have r0 : ∀ x : ℝ, Rel u 0 x x := fun x => Rel.refl hu hu0 x
    have hz := (((r0 (E - er)).round hC.fl hu hu0).div hu0 rs').round hC.fl hu hu0
    have hz2 := (Rel.weaken hu hu1' (hC.sq _)).trans hu0 (hz.pow hu0 2)
    have hneg : ∀ {n a b}, Rel u n a b → Rel u n (-a) (-b) := by
      rintro n a b ⟨θ, h1, h2, rfl⟩; exact ⟨θ, h1, h2, by ring⟩
    have hx := ((hneg hz2).div hu0 (r0 2)).round hC.fl hu hu0
    have hxa := (hx.mono hu hu0 (m := 2 * N + 2 * m + 70) (by omega)).abs_le hu (by push_cast; linarith)
    set x := -((E - er) / (pvGamma (2 * Real.sqrt (Real.log 2) * d) w / (2 * Real.sqrt (Real.log 2)) / Real.sqrt 2)) ^ 2 / 2 with hxd
    have hxx : |x| ≤ 200 := by
      rw [hxd, neg_div, abs_neg, abs_of_nonneg (by positivity)]
      exact ht'
    generalize A.toRArith.complete.fl (-A.toRArith.complete.sq (A.toRArith.complete.fl (A.toRArith.complete.fl (E - er) / s)) / 2) = x' at *
    have h5 : |x'| ≤ |x' - x| + |x| := by simpa using abs_add_le (x' - x) x
    have h6 : 1.01 * ((2 * N + 2 * m + 70 : ℕ) : ℝ) * u ≤ 0.05 := by push_cast; linarith
    have h7 : 1.01 * ((2 * N + 2 * m + 70 : ℕ) : ℝ) * u * |x| ≤ 0.05 * 200 := mul_le_mul h6 hxx (abs_nonneg _) (by norm_num)
    linarith
  have hη1 : η ≤ 1.01 := by
    have h1 : 2.1 * (3 * (N : ℝ) + 3 * ((N + m + 20 : ℕ) : ℝ) + 13) * u ≤ 0.01 := by push_cast; linarith
    have h2 := (abs_le.1 (eη.trans (mul_le_mul h1 hηb' hηb0 (by norm_num)))).2
    linarith
  have hGL : A.toRArith.complete.normPdf er s E ≤ 3 * A.toRArith.complete.cauchyPdf er c E := by
    rw [abs_of_nonneg (mul_nonneg hg0 (Real.exp_pos δ).le)] at en
    rw [abs_of_nonneg hL0] at eL
    generalize normPdf er (pvGamma (2 * Real.sqrt (Real.log 2) * d) w / (2 * Real.sqrt (Real.log 2)) / Real.sqrt 2) E = g at *
    generalize cauchyPdf er (0.5 * (0.5 * pvGamma (2 * Real.sqrt (Real.log 2) * d) w)) E = L at *
    have k1 : 1.01 * ((N + m + 26 + 10 : ℕ) : ℝ) * u ≤ 0.01 := by push_cast; linarith
    have k2 : 1.01 * ((3 * N + 3 * m + 76 : ℕ) : ℝ) * u ≤ 0.01 := by push_cast; linarith
    have j1 := (abs_le.1 (en.trans (mul_le_mul_of_nonneg_right k1 (mul_nonneg hg0 (Real.exp_pos δ).le)))).2
    have j2 := (abs_le.1 (eL.trans (mul_le_mul_of_nonneg_right k2 hL0))).1
    have j3 : g * Real.exp δ ≤ 2.1 * L * 1.3 := mul_le_mul hgc hexp (Real.exp_pos δ).le (by positivity)
    linarith
  obtain ⟨h1, h2⟩ := RArith.mix_same hR hu hu1 pη mη msη (mss.mono (by norm_num) (by norm_num)) (msc.mono (by norm_num) (by norm_num)) hE hx hη1
    hG' hGL
  refine ⟨_, ?_, rfl, h2⟩
  rw [if_pos ⟨hs', hc'⟩, h1]

end

end Ries
