import Verif.Spec.RoundedPV
import Verif.Lemmas.RoundedReso
import Verif.Lemmas.PseudoVoigt
import Mathlib.Analysis.Complex.ExponentialBounds
import Mathlib.Analysis.Real.Pi.Bounds

/-! # Rounding errors of pseudo-Voigt cross sections -/

namespace Ries

open KN

variable {u : ℝ} {A : PArith}

/-- exponentials of small numbers are products of small factors -/
theorem KN.Rel.of_exp {u ξ b : ℝ} {m : ℕ} (hu1 : u < 1) (h : |ξ| ≤ m * u) : Rel u m (b * Real.exp ξ) b := by
  have p : 0 < 1 - u := by linarith
  have e1 : (1 - u) ^ m ≤ Real.exp (-(m * u)) := by
    have : 1 - u ≤ Real.exp (-u) := by have := Real.add_one_le_exp (-u); linarith
    calc (1 - u) ^ m ≤ Real.exp (-u) ^ m := pow_le_pow_left₀ p.le this m
      _ = Real.exp (-(m * u)) := by rw [← Real.exp_nat_mul]; congr 1; ring
  obtain ⟨h1, h2⟩ := _root_.abs_le.1 h
  refine ⟨Real.exp ξ, e1.trans (Real.exp_le_exp.2 h1), ?_, rfl⟩
  rw [← inv_inv (Real.exp ξ)]
  apply inv_anti₀ (pow_pos p m)
  rw [← Real.exp_neg]
  exact e1.trans (Real.exp_le_exp.2 (by linarith))

/-- fifth roots -/
theorem KN.Rel.root5 {u a b : ℝ} {n : ℕ} (hu1 : u < 1) (hb : 0 ≤ b) (h : Rel u (5 * n) a b) : Rel u n (a ^ (0.2 : ℝ)) (b ^ (0.2 : ℝ)) := by
  obtain ⟨θ, l, r, rfl⟩ := h
  have p : 0 < (1 - u) ^ n := pow_pos (by linarith) n
  have hθ : 0 ≤ θ := (pow_pos (by linarith) _).le.trans l
  refine ⟨θ ^ (0.2 : ℝ), ?_, ?_, Real.mul_rpow hb hθ⟩
  · rw [← pow_five_root p.le, ← pow_mul, mul_comm n]
    exact Real.rpow_le_rpow (pow_pos (by linarith) _).le l (by norm_num)
  · rw [← pow_five_root (inv_pos.2 p).le, inv_pow, ← pow_mul, mul_comm n]
    exact Real.rpow_le_rpow hθ r (by norm_num)

theorem PArith.ln2_rel (hA : A.Accurate u) (hu : 0 ≤ u) (hu1 : u < 1) : Rel u 1 A.ln2 (Real.log 2) :=
  Rel.of_abs hu hu1 (by rw [abs_of_pos (Real.log_pos one_lt_two)]; exact hA.ln2)

theorem PArith.gaussFactor_rel (hA : A.Accurate u) (hu : 0 ≤ u) (hu1 : u < 1) : Rel u 3 A.gaussFactor (2 * Real.sqrt (Real.log 2)) := by
  have h := RArith.sqrt_rel hA.toAccurate hu hu1 (Real.log_pos one_lt_two).le (PArith.ln2_rel hA hu hu1)
  have := ((Rel.refl (n := 0) hu hu1 2).mul hu1 h).round hA.fl hu hu1
  exact this.mono hu hu1 (by omega)

theorem PArith.base_rel (hA : A.Accurate u) (hu : 0 ≤ u) (hu1 : u < 1) {g g' l l' : ℝ} {N : ℕ} (hg : 0 ≤ g) (hl : 0 ≤ l)
    (rg : Rel u 12 g' g) (rl : Rel u N l' l) : Rel u (5 * (N + 14)) (A.base g' l') (pvBase g l) := by
  have r0 : ∀ x : ℝ, Rel u 0 x x := fun x => Rel.refl hu hu1 x
  have rc : ∀ x : ℝ, Rel u 1 (A.fl x) x := fun x => (r0 x).round hA.fl hu hu1
  have g2 := (rg.mul hu1 rg).round hA.fl hu hu1
  have g4 := (g2.mul hu1 g2).round hA.fl hu hu1
  have l2 := (rl.mul hu1 rl).round hA.fl hu hu1
  have l3 := (l2.mul hu1 rl).round hA.fl hu hu1
  have l4 := (l2.mul hu1 l2).round hA.fl hu hu1
  have t1 := ((g4.mul hu1 rg).round hA.fl hu hu1).mono hu hu1 (m := 5 * N + 64) (by omega)
  have t2 := (((((rc 2.69269).mul hu1 g4).round hA.fl hu hu1).mul hu1 rl).round hA.fl hu hu1).mono hu hu1 (m := 5 * N + 64) (by omega)
  have t3 := (((((((rc 2.42843).mul hu1 g2).round hA.fl hu hu1).mul hu1 rg).round hA.fl hu hu1).mul hu1 l2).round hA.fl hu hu1).mono hu hu1
    (m := 5 * N + 65) (by omega)
  have t4 := (((((rc 4.47163).mul hu1 g2).round hA.fl hu hu1).mul hu1 l3).round hA.fl hu hu1).mono hu hu1 (m := 5 * N + 66) (by omega)
  have t5 := (((((rc 0.07842).mul hu1 rg).round hA.fl hu hu1).mul hu1 l4).round hA.fl hu hu1).mono hu hu1 (m := 5 * N + 67) (by omega)
  have t6 := ((l4.mul hu1 rl).round hA.fl hu hu1).mono hu hu1 (m := 5 * N + 68) (by omega)
  have s1 := (t1.add (by positivity) (by positivity) t2).round hA.fl hu hu1
  have s2 := (s1.add (by positivity) (by positivity) t3).round hA.fl hu hu1
  have s3 := (s2.add (by positivity) (by positivity) t4).round hA.fl hu hu1
  have s4 := (s3.add (by positivity) (by positivity) t5).round hA.fl hu hu1
  have s5 := (s4.add (by positivity) (by positivity) t6).round hA.fl hu hu1
  have := s5.mono hu hu1 (m := 5 * (N + 14)) (by omega)
  rw [show pvBase g l = g * g * (g * g) * g + 2.69269 * (g * g * (g * g)) * l + 2.42843 * (g * g) * g * (l * l)
    + 4.47163 * (g * g) * (l * l * l) + 0.07842 * g * (l * l * (l * l)) + l * l * (l * l) * l by unfold pvBase; ring]
  exact this

/-- The exponent `0.2` is not a binary fraction; this costs `|log Γ|` roundings. -/
theorem PArith.bigGamma_rel (hA : A.Accurate u) (hu : 0 ≤ u) {g g' l l' : ℝ} {N m : ℕ} (hg : 0 ≤ g) (hl : 0 ≤ l) (hpos : 0 < pvBase g l)
    (rg : Rel u 12 g' g) (rl : Rel u N l' l) (hm : |Real.log (pvGamma g l)| ≤ m) (hN : ((5 * (N + 14) : ℕ) : ℝ) * u ≤ 1 / 200) :
    Rel u (N + m + 20) (A.bigGamma g' l') (pvGamma g l) := by
  have hu1 : u ≤ 1 / 100 := by
    push_cast at hN
    have : (0 : ℝ) ≤ N := Nat.cast_nonneg _
    nlinarith
  have hu1' : u < 1 := by linarith
  have rb := PArith.base_rel hA hu hu1' hg hl rg rl
  have hb' : 0 < A.base g' l' := rb.pos hu1' hpos
  have r1 : Rel u 5 (A.pow (A.base g' l') (A.fl 0.2)) ((A.base g' l') ^ (A.fl 0.2)) := by
    apply Rel.weaken hu hu1
    rw [abs_of_pos (Real.rpow_pos_of_pos hb' (A.fl 0.2))]
    exact hA.pow (A.base g' l') (A.fl 0.2) hb'
  have r2 := rb.root5 hu1' hpos.le
  rw [pvGamma_eq hg hl] at hm ⊢
  rw [Real.log_rpow hpos] at hm
  have hfl := hA.fl (0.2 : ℝ)
  rw [abs_of_pos (by norm_num : (0 : ℝ) < 0.2)] at hfl
  have e : (A.base g' l') ^ (A.fl 0.2) = (A.base g' l') ^ (0.2 : ℝ) * Real.exp ((A.fl 0.2 - 0.2) * Real.log (A.base g' l')) := by
    rw [Real.rpow_def_of_pos hb', Real.rpow_def_of_pos hb', ← Real.exp_add]
    congr 1
    ring
  have hlog : |Real.log (A.base g' l') - Real.log (pvBase g l)| ≤ 1 := by
    have ha := rb.abs_le hu hN
    rw [abs_of_pos hpos] at ha
    have hq : |A.base g' l' - pvBase g l| ≤ 0.01 * pvBase g l := by
      refine ha.trans (mul_le_mul_of_nonneg_right ?_ hpos.le)
      linarith
    obtain ⟨q1, q2⟩ := _root_.abs_le.1 hq
    have c1 : pvBase g l ≤ Real.exp 1 * A.base g' l' := by
      have := Real.add_one_le_exp (1 : ℝ)
      nlinarith
    have c2 : A.base g' l' ≤ Real.exp 1 * pvBase g l := by
      have := Real.add_one_le_exp (1 : ℝ)
      nlinarith
    rw [_root_.abs_le]
    constructor
    · have := Real.log_le_log hpos c1
      rw [Real.log_mul (Real.exp_pos 1).ne' hb'.ne', Real.log_exp] at this
      linarith
    · have := Real.log_le_log hb' c2
      rw [Real.log_mul (Real.exp_pos 1).ne' hpos.ne', Real.log_exp] at this
      linarith
  have hξ : |(A.fl 0.2 - 0.2) * Real.log (A.base g' l')| ≤ ((m + 1 : ℕ) : ℝ) * u := by
    rw [abs_mul]
    have h1 : |Real.log (A.base g' l')| ≤ 5 * m + 1 := by
      have : Real.log (A.base g' l') = (Real.log (A.base g' l') - Real.log (pvBase g l)) + Real.log (pvBase g l) := by ring
      rw [this]
      refine (abs_add_le _ _).trans ?_
      rw [abs_mul, abs_of_pos (by norm_num : (0 : ℝ) < 0.2)] at hm
      linarith
    calc _ ≤ (u * 0.2) * (5 * m + 1) := mul_le_mul hfl h1 (abs_nonneg _) (by positivity)
      _ ≤ _ := by push_cast; nlinarith
  have r3 := (Rel.of_exp (b := (A.base g' l') ^ (0.2 : ℝ)) hu1' hξ)
  rw [← e] at r3
  have := (r1.trans hu1' r3).trans hu1' r2
  exact this.mono hu hu1' (by omega)

/-- the mixing parameter from its three terms -/
theorem eta_terms {u x Q a b c : ℝ} {fl : ℝ → ℝ} (hfl : Rounding u fl) (hu : 0 ≤ u) (hu2 : u ≤ 1 / 2000) (hx0 : 0 ≤ x) (hx1 : x ≤ 1)
    (hQ0 : 0 ≤ Q) (hQ : Q * u ≤ 1 / 200) (ea : |a - 1.36603 * x| ≤ 1.01 * Q * u * (1.36603 * x))
    (eb : |b - 0.47719 * x ^ 2| ≤ 1.01 * Q * u * (0.47719 * x ^ 2)) (ec : |c - 0.11116 * x ^ 3| ≤ 1.01 * Q * u * (0.11116 * x ^ 3)) :
    |fl (fl (a - b) + c) - (1.36603 * x - 0.47719 * x ^ 2 + 0.11116 * x ^ 3)| ≤
      2.1 * (Q + 3) * u * (1.36603 * x - 0.47719 * x ^ 2 + 0.11116 * x ^ 3) := by
  have f1 := hfl (a - b)
  have f2 := hfl (fl (a - b) + c)
  have hQu : 0 ≤ Q * u := by positivity
  -- the exact sum
  have h2 : x ^ 2 ≤ x := by nlinarith
  have h3 : x ^ 3 ≤ x := by nlinarith [mul_nonneg hx0 hx0]
  have hη : 0.9999 * x ≤ 1.36603 * x - 0.47719 * x ^ 2 + 0.11116 * x ^ 3 := by
    nlinarith [mul_nonneg hx0 (sub_nonneg.2 hx1), mul_nonneg hx0 (sq_nonneg (1 - x)), mul_nonneg (mul_nonneg hx0 hx0) (sub_nonneg.2 hx1)]
  have k1 : |a - b - (1.36603 * x - 0.47719 * x ^ 2)| ≤ 1.01 * Q * u * (1.84322 * x) := by
    have : a - b - (1.36603 * x - 0.47719 * x ^ 2) = (a - 1.36603 * x) + -(b - 0.47719 * x ^ 2) := by ring
    rw [this]
    refine (abs_add_le _ _).trans ?_
    rw [abs_neg]
    have : 1.01 * Q * u * (0.47719 * x ^ 2) ≤ 1.01 * Q * u * (0.47719 * x) := by gcongr
    linarith
  have ec' : |c - 0.11116 * x ^ 3| ≤ 1.01 * Q * u * (0.11116 * x) := ec.trans (by gcongr)
  have k2 : |a - b| ≤ 1.4 * x := by
    have : a - b = (a - b - (1.36603 * x - 0.47719 * x ^ 2)) + (1.36603 * x - 0.47719 * x ^ 2) := by ring
    rw [this]
    refine (abs_add_le _ _).trans ?_
    have : |1.36603 * x - 0.47719 * x ^ 2| ≤ 1.36603 * x := by
      rw [_root_.abs_le]; constructor <;> nlinarith [sq_nonneg x]
    have : 1.01 * Q * u * (1.84322 * x) ≤ 0.01 * x := by
      have : Q * u * x ≤ 1 / 200 * x := mul_le_mul_of_nonneg_right hQ hx0
      linarith
    linarith
  have f1' : |fl (a - b) - (a - b)| ≤ u * (1.4 * x) := f1.trans (by gcongr)
  have hux : 0 ≤ u * x := by positivity
  have hux' : u * x ≤ 1 / 2000 * x := by gcongr
  have k3 : |fl (a - b) + c - (1.36603 * x - 0.47719 * x ^ 2 + 0.11116 * x ^ 3)| ≤ 1.01 * Q * u * (1.95438 * x) + 1.4 * (u * x) := by
    have : fl (a - b) + c - (1.36603 * x - 0.47719 * x ^ 2 + 0.11116 * x ^ 3) =
        (fl (a - b) - (a - b)) + (a - b - (1.36603 * x - 0.47719 * x ^ 2)) + (c - 0.11116 * x ^ 3) := by ring
    rw [this]
    refine (abs_add_three _ _ _).trans ?_
    linarith
  have hQx : Q * u * x ≤ 1 / 200 * x := mul_le_mul_of_nonneg_right hQ hx0
  have k4 : |fl (a - b) + c| ≤ 1.6 * x := by
    have : fl (a - b) + c = (fl (a - b) + c - (1.36603 * x - 0.47719 * x ^ 2 + 0.11116 * x ^ 3)) +
      (1.36603 * x - 0.47719 * x ^ 2 + 0.11116 * x ^ 3) := by ring
    rw [this]
    refine (abs_add_le _ _).trans ?_
    rw [abs_of_nonneg (by linarith : (0 : ℝ) ≤ 1.36603 * x - 0.47719 * x ^ 2 + 0.11116 * x ^ 3)]
    have := sq_nonneg x
    linarith
  have f2' : |fl (fl (a - b) + c) - (fl (a - b) + c)| ≤ u * (1.6 * x) := f2.trans (by gcongr)
  have : fl (fl (a - b) + c) - (1.36603 * x - 0.47719 * x ^ 2 + 0.11116 * x ^ 3) =
      (fl (fl (a - b) + c) - (fl (a - b) + c)) + (fl (a - b) + c - (1.36603 * x - 0.47719 * x ^ 2 + 0.11116 * x ^ 3)) := by ring
  rw [this]
  refine (abs_add_le _ _).trans ?_
  have e3 : 2.1 * (Q + 3) * u * (0.9999 * x) ≤ 2.1 * (Q + 3) * u * (1.36603 * x - 0.47719 * x ^ 2 + 0.11116 * x ^ 3) :=
    mul_le_mul_of_nonneg_left hη (by positivity)
  refine le_trans ?_ e3
  have e4 : 2.1 * (Q + 3) * u * (0.9999 * x) = 2.09979 * (Q * u * x) + 6.29937 * (u * x) := by ring
  rw [e4]
  have : 0 ≤ Q * u * x := by positivity
  linarith

/-- the mixing parameter -/
theorem PArith.eta_err (hA : A.Accurate u) (hu : 0 ≤ u) {l l' gam gam' : ℝ} {N M : ℕ} (hl : 0 ≤ l) (hle : l ≤ gam) (hg : 0 < gam)
    (rl : Rel u N l' l) (rg : Rel u M gam' gam) (hQ : ((3 * N + 3 * M + 10 : ℕ) : ℝ) * u ≤ 1 / 200) :
    |A.eta l' gam' - pvEta l gam| ≤ 2.1 * (3 * N + 3 * M + 13) * u * pvEta l gam := by
  have hNn : (0 : ℝ) ≤ N := Nat.cast_nonneg _
  have hMn : (0 : ℝ) ≤ M := Nat.cast_nonneg _
  have hu2 : u ≤ 1 / 2000 := by push_cast at hQ; nlinarith
  have hu1 : u < 1 := by linarith
  have r0 : ∀ x : ℝ, Rel u 0 x x := fun x => Rel.refl hu hu1 x
  have rc : ∀ x : ℝ, Rel u 1 (A.fl x) x := fun x => (r0 x).round hA.fl hu hu1
  have l2 := (rl.mul hu1 rl).round hA.fl hu hu1
  have l3 := (l2.mul hu1 rl).round hA.fl hu hu1
  have inv := ((r0 1).div hu1 rg).round hA.fl hu hu1
  have inv2 := (inv.mul hu1 inv).round hA.fl hu hu1
  have ra := (((((rc 1.36603).mul hu1 rl).round hA.fl hu hu1).mul hu1 inv).round hA.fl hu hu1).mono hu hu1 (m := 3 * N + 3 * M + 10) (by omega)
  have rb := (((((rc 0.47719).mul hu1 l2).round hA.fl hu hu1).mul hu1 inv2).round hA.fl hu hu1).mono hu hu1 (m := 3 * N + 3 * M + 10) (by omega)
  have rcc := (((((((rc 0.11116).mul hu1 l3).round hA.fl hu hu1).mul hu1 inv2).round hA.fl hu hu1).mul hu1 inv).round hA.fl hu hu1).mono hu hu1
    (m := 3 * N + 3 * M + 10) (by omega)
  have ea := ra.abs_le hu hQ
  have eb := rb.abs_le hu hQ
  have ec := rcc.abs_le hu hQ
  set x := l / gam with hx
  have hx0 : 0 ≤ x := div_nonneg hl hg.le
  have hx1 : x ≤ 1 := (div_le_one hg).2 hle
  have xa : 1.36603 * l * (1 / gam) = 1.36603 * x := by rw [hx]; ring
  have xb : 0.47719 * (l * l) * (1 / gam * (1 / gam)) = 0.47719 * x ^ 2 := by rw [hx]; ring
  have xc : 0.11116 * (l * l * l) * (1 / gam * (1 / gam)) * (1 / gam) = 0.11116 * x ^ 3 := by rw [hx]; ring
  rw [xa, abs_of_nonneg (show 0 ≤ 1.36603 * x by positivity)] at ea
  rw [xb, abs_of_nonneg (show 0 ≤ 0.47719 * x ^ 2 by positivity)] at eb
  rw [xc, abs_of_nonneg (show 0 ≤ 0.11116 * x ^ 3 by positivity)] at ec
  rw [pvEta_ratio, ← hx]
  unfold PArith.eta
  simp only
  set a := A.fl (A.fl (A.fl 1.36603 * l') * A.fl (1 / gam'))
  set b := A.fl (A.fl (A.fl 0.47719 * A.fl (l' * l')) * A.fl (A.fl (1 / gam') * A.fl (1 / gam')))
  set c := A.fl (A.fl (A.fl (A.fl 0.11116 * A.fl (A.fl (l' * l') * l')) * A.fl (A.fl (1 / gam') * A.fl (1 / gam'))) * A.fl (1 / gam'))
  push_cast at ea eb ec hQ
  have := eta_terms (c := c) hA.fl hu hu2 hx0 hx1 (by positivity) hQ ea eb ec
  refine this.trans (le_of_eq ?_)
  ring

/-- the Gauss component is nowhere much larger than the Cauchy component -/
theorem gauss_le_cauchy {gam : ℝ} (hg : 0 < gam) (l x : ℝ) :
    normPdf l (gam / (2 * Real.sqrt (Real.log 2)) / Real.sqrt 2) x ≤ 2.1 * cauchyPdf l (0.5 * (0.5 * gam)) x := by
  have hq : 0 < Real.sqrt (Real.log 2) := sqrt_log_two_pos
  have hp : 0 < Real.sqrt Real.pi := Real.sqrt_pos.2 Real.pi_pos
  have hr : 0 < Real.sqrt 2 := by positivity
  have q2 : Real.sqrt (Real.log 2) ^ 2 = Real.log 2 := Real.sq_sqrt (Real.log_pos one_lt_two).le
  have p2 : Real.sqrt Real.pi ^ 2 = Real.pi := Real.sq_sqrt Real.pi_pos.le
  have r2 : Real.sqrt 2 ^ 2 = 2 := Real.sq_sqrt (by norm_num)
  have hl1 := Real.log_two_gt_d9
  have hl2 := Real.log_two_lt_d9
  have hp1 := Real.pi_lt_d4
  have h2p : Real.sqrt (2 * Real.pi) = Real.sqrt 2 * Real.sqrt Real.pi := Real.sqrt_mul (by norm_num) _
  unfold normPdf cauchyPdf
  rw [h2p, ← p2]
  set q := Real.sqrt (Real.log 2)
  set p := Real.sqrt Real.pi
  set r := Real.sqrt 2
  rw [← q2] at hl1 hl2
  rw [← p2] at hp1
  set t := ((x - l) / (gam / (2 * q) / r)) ^ 2 / 2 with ht
  have ht0 : 0 ≤ t := by positivity
  have et : ((x - l) / (0.5 * (0.5 * gam))) ^ 2 = 4 * t / q ^ 2 := by
    rw [ht]
    field_simp
    rw [r2]
    ring
  have e1 : -((x - l) / (gam / (2 * q) / r)) ^ 2 / 2 = -t := by rw [ht]; ring
  rw [et, e1, Real.exp_neg, Real.sqrt_sq hp.le]
  have hex := Real.quadratic_le_exp_of_nonneg ht0
  have b1 : p * q ≤ 1.476 := by
    apply le_of_sq_le_sq _ (by norm_num)
    rw [mul_pow]
    nlinarith [sq_nonneg p, sq_nonneg q]
  have b2 : p ≤ 2.13 * q := by
    apply le_of_sq_le_sq _ (by positivity)
    rw [mul_pow]
    nlinarith
  have key : p * q * (1 + 4 * t / q ^ 2) ≤ 4.2 * Real.exp t := by
    have e : p * q * (1 + 4 * t / q ^ 2) = p * q + 4 * t * (p / q) := by field_simp
    have : p / q ≤ 2.13 := (div_le_iff₀ hq).2 b2
    rw [e]
    have : 4 * t * (p / q) ≤ 4 * t * 2.13 := by gcongr
    nlinarith [sq_nonneg (t - 1.03)]
  have hE := Real.exp_pos t
  have hd : 0 < 1 + 4 * t / q ^ 2 := by positivity
  have l1 : (Real.exp t)⁻¹ / (gam / (2 * q) / r * (r * p)) = 2 * q / (gam * p * Real.exp t) := by field_simp
  have l2 : 2.1 * (1 / (p ^ 2 * (0.5 * (0.5 * gam)) * (1 + 4 * t / q ^ 2))) = 8.4 / (p ^ 2 * gam * (1 + 4 * t / q ^ 2)) := by
    field_simp
    norm_num
  rw [l1, l2, div_le_div_iff₀ (by positivity) (by positivity)]
  have := mul_le_mul_of_nonneg_left key (show 0 ≤ 2 * gam * p by positivity)
  calc 2 * q * (p ^ 2 * gam * (1 + 4 * t / q ^ 2)) = 2 * gam * p * (p * q * (1 + 4 * t / q ^ 2)) := by ring
    _ ≤ _ := this
    _ = _ := by ring

/-- the linear combination -/
theorem mix_err {u η h ℓ g g' G L L' η' : ℝ} {fl : ℝ → ℝ} (hfl : Rounding u fl) (hu : 0 ≤ u) (hu1 : u ≤ 1 / 100) (h0 : 0 ≤ η) (h1 : η ≤ 1)
    (hh : 0 ≤ h) (hl : 0 ≤ ℓ) (hg0 : 0 ≤ g) (hL0 : 0 ≤ L) (hG : 0 ≤ G) (hη : |η' - η| ≤ h * η) (hgG : |g' - g| ≤ G)
    (hh1 : ℓ ≤ 1 / 100) (hL : |L' - L| ≤ ℓ * L) :
    |fl (fl (fl (1 - η') * g') + fl (η' * L')) - ((1 - η) * g + η * L)| ≤
      1.03 * ((u * (1 - η) + 1.01 * h * η) * (g + G) + (1 - η) * G + (1.01 * h + ℓ) * η * L) + 2.01 * u * ((1 - η) * g + η * L) := by
  have hv : 0 ≤ 1 - η := by linarith
  set v := 1 - η with hvdef
  have step : ∀ X Y B : ℝ, |X - Y| ≤ B → |fl X - Y| ≤ 1.01 * B + u * |Y| := by
    intro X Y B hB
    have hB0 : 0 ≤ B := (abs_nonneg _).trans hB
    have f := hfl X
    have a : |X| ≤ B + |Y| := by
      have : X = (X - Y) + Y := by ring
      rw [this]
      exact (abs_add_le _ _).trans (by linarith)
    have : fl X - Y = (fl X - X) + (X - Y) := by ring
    rw [this]
    refine (abs_add_le _ _).trans ?_
    have : u * |X| ≤ u * (B + |Y|) := mul_le_mul_of_nonneg_left a hu
    nlinarith
  have stepu : ∀ X Y B : ℝ, |X - Y| ≤ B → |fl X - Y| ≤ (1 + u) * B + u * |Y| := by
    intro X Y B hB
    have f := hfl X
    have a : |X| ≤ B + |Y| := by
      have : X = (X - Y) + Y := by ring
      rw [this]
      exact (abs_add_le _ _).trans (by linarith)
    have : fl X - Y = (fl X - X) + (X - Y) := by ring
    rw [this]
    refine (abs_add_le _ _).trans ?_
    have : u * |X| ≤ u * (B + |Y|) := mul_le_mul_of_nonneg_left a hu
    nlinarith
  have s1 : |fl (1 - η') - v| ≤ u * v + 1.01 * h * η := by
    have := step (1 - η') v (h * η) (by rw [hvdef, show 1 - η' - (1 - η) = -(η' - η) by ring, abs_neg]; exact hη)
    rw [abs_of_nonneg hv] at this
    linarith
  set v' := fl (1 - η')
  set ε := u * v + 1.01 * h * η with hε
  have hε0 : 0 ≤ ε := by positivity
  have s2 : |v' * g' - v * g| ≤ ε * (g + G) + v * G := by
    have : v' * g' - v * g = (v' - v) * (g + (g' - g)) + v * (g' - g) := by ring
    rw [this]
    refine (abs_add_le _ _).trans ?_
    rw [abs_mul, abs_mul, abs_of_nonneg hv]
    have a : |g + (g' - g)| ≤ g + G := (abs_add_le _ _).trans (by rw [abs_of_nonneg hg0]; linarith)
    have := mul_le_mul s1 a (abs_nonneg _) hε0
    have := mul_le_mul_of_nonneg_left hgG hv
    linarith
  have s3 : |η' * L' - η * L| ≤ (1.01 * h + ℓ) * η * L := by
    have : η' * L' - η * L = (η' - η) * (L + (L' - L)) + η * (L' - L) := by ring
    rw [this]
    refine (abs_add_le _ _).trans ?_
    rw [abs_mul, abs_mul, abs_of_nonneg h0]
    have a : |L + (L' - L)| ≤ 1.01 * L := (abs_add_le _ _).trans (by rw [abs_of_nonneg hL0]; nlinarith)
    have := mul_le_mul hη a (abs_nonneg _) (by positivity)
    have := mul_le_mul_of_nonneg_left hL h0
    nlinarith
  set B1 := ε * (g + G) + v * G
  set B2 := (1.01 * h + ℓ) * η * L
  have hB1 : 0 ≤ B1 := (abs_nonneg _).trans s2
  have hB2 : 0 ≤ B2 := (abs_nonneg _).trans s3
  have hvg : 0 ≤ v * g := by positivity
  have hηL : 0 ≤ η * L := by positivity
  have s4 := stepu _ _ _ s2
  have s5 := stepu _ _ _ s3
  rw [abs_of_nonneg hvg] at s4
  rw [abs_of_nonneg hηL] at s5
  have s6 : |fl (v' * g') + fl (η' * L') - (v * g + η * L)| ≤ (1 + u) * (B1 + B2) + u * (v * g + η * L) := by
    have : fl (v' * g') + fl (η' * L') - (v * g + η * L) = (fl (v' * g') - v * g) + (fl (η' * L') - η * L) := by ring
    rw [this]
    refine (abs_add_le _ _).trans ?_
    linarith
  have s7 := stepu _ _ _ s6
  rw [abs_of_nonneg (add_nonneg hvg hηL)] at s7
  refine s7.trans ?_
  set p := v * g + η * L
  have hp : 0 ≤ p := add_nonneg hvg hηL
  have hB : 0 ≤ B1 + B2 := add_nonneg hB1 hB2
  have c1 : (1 + u) * ((1 + u) * (B1 + B2)) ≤ 1.03 * (B1 + B2) := by
    have : (1 + u) * (1 + u) ≤ 1.03 := by nlinarith
    nlinarith
  have c2 : u * (u * p) ≤ 0.01 * (u * p) := mul_le_mul_of_nonneg_right (by linarith) (by positivity)
  calc (1 + u) * ((1 + u) * (B1 + B2) + u * p) + u * p = (1 + u) * ((1 + u) * (B1 + B2)) + u * (u * p) + 2 * (u * p) := by ring
    _ ≤ 1.03 * (B1 + B2) + 0.01 * (u * p) + 2 * (u * p) := by linarith
    _ = _ := by ring

/-- The density: everything but the size of the error of the Gauss component, which depends on the energy. -/
theorem PArith.pdf_err (hA : A.Accurate u) (hu : 0 ≤ u) {w w' d d' er : ℝ} {N m : ℕ} (hw : 0 ≤ w) (hd : 0 < d) (rw' : Rel u N w' w)
    (rd : Rel u 8 d' d) (hm : |Real.log (mkPV er w d).bigGamma| ≤ m) (hN : (50 * N + 26 * m + 670 : ℝ) * u ≤ 1 / 200) (E : ℝ) :
    ∃ δ p' G, |δ| ≤ 1.01 * (2 * N + 2 * m + 62) * u * (((E - er) / (mkPV er w d).normScale) ^ 2 / 2) ∧ A.pvPdf er w' d' E = .fin p' ∧
      G = (1.01 * (N + m + 36) * u * Real.exp δ + |Real.exp δ - 1|) * normPdf er (mkPV er w d).normScale E ∧
      |p' - (mkPV er w d).pdfR E| ≤ 1.03 * ((u * (1 - (mkPV er w d).eta) + 1.01 * (2.1 * (6 * N + 3 * m + 73) * u) * (mkPV er w d).eta) *
          (normPdf er (mkPV er w d).normScale E + G) + (1 - (mkPV er w d).eta) * G +
          (1.01 * (2.1 * (6 * N + 3 * m + 73) * u) + 1.01 * (3 * N + 3 * m + 76) * u) * (mkPV er w d).eta *
            cauchyPdf er (mkPV er w d).cauchyScale E) + 2.01 * u * (mkPV er w d).pdfR E := by
  have hNn : (0 : ℝ) ≤ N := Nat.cast_nonneg _
  have hmn : (0 : ℝ) ≤ m := Nat.cast_nonneg _
  have hNu : 0 ≤ N * u := by positivity
  have hmu : 0 ≤ m * u := by positivity
  have hN' : 50 * (N * u) + 26 * (m * u) + 670 * u ≤ 1 / 200 := by linarith
  have hu1 : u ≤ 1 / 100 := by linarith
  have hu1' : u < 1 := by linarith
  have hok : PV.Ok w d := ⟨hw, hd.le, .inr hd⟩
  have hgp : 0 < 2 * Real.sqrt (Real.log 2) * d := mul_pos (mul_pos two_pos sqrt_log_two_pos) hd
  have hpos : 0 < pvBase (2 * Real.sqrt (Real.log 2) * d) w := (pow_pos hgp 5).trans_le (pvBase_ge_left hgp.le hw)
  have rgf := PArith.gaussFactor_rel hA hu hu1'
  have rg := (rgf.mul hu1' rd).round hA.fl hu hu1'
  have rgam := PArith.bigGamma_rel hA hu hgp.le hw hpos rg rw' hm (by push_cast; linarith)
  have hgam : 0 < pvGamma (2 * Real.sqrt (Real.log 2) * d) w := hok.gamma_pos (er := er)
  have hle := pvGamma_ge_right hgp.le hw
  have eη := PArith.eta_err hA hu hw hle hgam rw' rgam (by push_cast; linarith)
  have r2 := RArith.sqrt_rel hA.toAccurate hu hu1' (by norm_num : (0 : ℝ) ≤ 2) (Rel.refl (n := 0) hu hu1' 2)
  have rs := (((rgam.div hu1' rgf).round hA.fl hu hu1').div hu1' r2).round hA.fl hu hu1'
  have rs' := rs.mono hu hu1' (m := N + m + 26) (by omega)
  have r5 : Rel u 0 (0.5 : ℝ) 0.5 := Rel.refl hu hu1' _
  have rc := (r5.mul hu1' ((r5.mul hu1' rgam).round hA.fl hu hu1')).round hA.fl hu hu1'
  have hs : 0 < pvGamma (2 * Real.sqrt (Real.log 2) * d) w / (2 * Real.sqrt (Real.log 2)) / Real.sqrt 2 := hok.normScale_pos (er := er)
  have hc : 0 < 0.5 * (0.5 * pvGamma (2 * Real.sqrt (Real.log 2) * d) w) := hok.cauchyScale_pos (er := er)
  have hs' := rs.pos hu1' hs
  have hc' := rc.pos hu1' hc
  obtain ⟨δ, hδ, rn⟩ := RArith.norm_rel (l := er) hA.toAccurate hu hu1 rs' (by push_cast; linarith) E
  have rL := RArith.cauchy_rel (l := er) hA.toAccurate hu hu1' hc rc E
  have eL := (rL.mono hu hu1' (m := 3 * N + 3 * m + 76) (by omega)).abs_le hu (by push_cast; linarith)
  have en := rn.abs_le hu (by push_cast; linarith)
  have hηb := hok.eta_bounds (er := er)
  refine ⟨δ, _, _, ?_, by rw [PArith.pvPdf]; exact if_pos ⟨hs', hc'⟩, rfl, ?_⟩
  · refine hδ.trans (le_of_eq ?_)
    push_cast
    show 1.01 * (2 * ((N : ℝ) + m + 26) + 10) * u * (((E - er) / (mkPV er w d).normScale) ^ 2 / 2) = _
    ring
  · have hg0 : 0 ≤ normPdf er (mkPV er w d).normScale E := by
      have : 0 < (mkPV er w d).normScale := hs
      unfold normPdf; positivity
    have hL0 : 0 ≤ cauchyPdf er (mkPV er w d).cauchyScale E := by
      have : 0 < (mkPV er w d).cauchyScale := hc
      have := Real.pi_pos
      unfold cauchyPdf; positivity
    refine mix_err hA.fl hu hu1 hηb.1 hηb.2 (by positivity) (by positivity) hg0 hL0 (by positivity) ?_ ?_ ?_ ?_
    · refine eη.trans (le_of_eq ?_)
      push_cast
      show 2.1 * (3 * (N : ℝ) + 3 * (N + m + 20) + 13) * u * (mkPV er w d).eta = _
      ring
    · show |_ - normPdf er (mkPV er w d).normScale E| ≤ _
      rw [abs_mul, abs_of_pos (Real.exp_pos δ)] at en
      change |_ - normPdf er (mkPV er w d).normScale E * _| ≤ _ * (|normPdf er (mkPV er w d).normScale E| * _) at en
      rw [abs_of_nonneg hg0] at en
      push_cast at en
      set g := normPdf er (mkPV er w d).normScale E
      set g' := A.normPdf er _ E
      have : g' - g = (g' - g * Real.exp δ) + g * (Real.exp δ - 1) := by ring
      rw [this]
      refine (abs_add_le _ _).trans ?_
      rw [abs_mul, abs_of_nonneg hg0]
      refine (add_le_add_left en _).trans (le_of_eq ?_)
      ring
    · linarith
    · change |_ - cauchyPdf er (mkPV er w d).cauchyScale E| ≤ _ * |cauchyPdf er (mkPV er w d).cauchyScale E| at eL
      rw [abs_of_nonneg hL0] at eL
      refine eL.trans (le_of_eq ?_)
      show _ = _ * cauchyPdf er (mkPV er w d).cauchyScale E
      push_cast
      rfl

end Ries
