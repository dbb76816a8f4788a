import Verif.Spec.RoundedDebye
import Verif.Lemmas.RoundedReso
import Verif.Lemmas.Debye
import Verif.Props.Debye
import Verif.Props.RoundedReso

/-! # Property C180: effective temperatures in floating point -/

open MeasureTheory Set

namespace Ries

open KN

theorem debyeIntegrand_phi (t : ℝ) : debyeIntegrand t = t ^ 3 * phi t := rfl

theorem phi_pos {t : ℝ} (ht : 0 < t) : 0 < phi t := lt_trans (by norm_num) (half_lt_phi ht)

/-- the integral in the scaled variable -/
theorem debye_integral {b : ℝ} (hb : 0 < b) : ∫ t in (0 : ℝ)..b, debyeIntegrand t = b ^ 4 * ∫ s in (0 : ℝ)..1, unitIntegrand b s := by
  rw [funext (unitIntegrand_eq hb), intervalIntegral.integral_div, intervalIntegral.integral_comp_mul_right _ hb.ne']
  simp only [zero_mul, one_mul, smul_eq_mul]
  field_simp

theorem unit_integrable {b : ℝ} (hb : 0 < b) : IntervalIntegrable (unitIntegrand b) volume 0 1 :=
  ContinuousOn.intervalIntegrable (by rw [uIcc_of_le zero_le_one]; exact unitIntegrand_continuousOn hb)

theorem unit_anti {b c : ℝ} (hb : 0 < b) (hbc : b ≤ c) :
    ∫ s in (0 : ℝ)..1, unitIntegrand c s ≤ ∫ s in (0 : ℝ)..1, unitIntegrand b s := by
  rcases hbc.eq_or_lt with rfl | h
  · exact le_rfl
  refine (unit_lt (unitIntegrand_continuousOn (hb.trans h)) (unitIntegrand_continuousOn hb) fun s hs _ => ?_).le
  exact mul_lt_mul_of_pos_left (phi_anti (mul_pos hs hb) (mul_lt_mul_of_pos_left h hs)) (by positivity)

theorem unit_mono {b c : ℝ} (hb : 0 < b) (hbc : b ≤ c) :
    b * ∫ s in (0 : ℝ)..1, unitIntegrand b s ≤ c * ∫ s in (0 : ℝ)..1, unitIntegrand c s := by
  rcases hbc.eq_or_lt with rfl | h
  · exact le_rfl
  have hc := hb.trans h
  rw [← intervalIntegral.integral_const_mul, ← intervalIntegral.integral_const_mul]
  refine (unit_lt (continuousOn_const.mul (unitIntegrand_continuousOn hb))
    (continuousOn_const.mul (unitIntegrand_continuousOn hc)) fun s hs _ => ?_).le
  have h1 := mul_phi_mono (mul_pos hs hb) (mul_lt_mul_of_pos_left h hs)
  have e : ∀ x, x * unitIntegrand x s = s ^ 2 * (s * x * phi (s * x)) := by intro x; unfold unitIntegrand; ring
  show b * unitIntegrand b s < c * unitIntegrand c s
  rw [e, e]
  exact mul_lt_mul_of_pos_left h1 (by positivity)

/-- the integral is at least a quarter of the last value times the length -/
theorem quarter_le {b : ℝ} (hb : 0 < b) : b * debyeIntegrand b / 4 ≤ ∫ t in (0 : ℝ)..b, debyeIntegrand t := by
  rw [debye_integral hb, debyeIntegrand_phi]
  have h : ∫ s in (0 : ℝ)..1, s ^ 3 * phi b ≤ ∫ s in (0 : ℝ)..1, unitIntegrand b s := by
    refine intervalIntegral.integral_mono_on zero_le_one ?_ (unit_integrable hb) fun s hs => ?_
    · exact Continuous.intervalIntegrable (by fun_prop) _ _
    rcases hs.1.eq_or_lt with rfl | h0
    · simp [unitIntegrand]
    unfold unitIntegrand
    refine mul_le_mul_of_nonneg_left ?_ (by positivity)
    rcases hs.2.eq_or_lt with rfl | h1
    · simp
    · exact (phi_anti (mul_pos h0 hb) (by nlinarith)).le
  rw [intervalIntegral.integral_mul_const, integral_pow] at h
  norm_num at h
  have := mul_le_mul_of_nonneg_left h (show 0 ≤ b ^ 4 by positivity)
  linarith

theorem debye_integral_pos {b : ℝ} (hb : 0 < b) : 0 < ∫ t in (0 : ℝ)..b, debyeIntegrand t :=
  lt_of_lt_of_le (by rw [debyeIntegrand_phi]; have := phi_pos hb; positivity) (quarter_le hb)

/-- a relative error of the limit -/
theorem integral_rel {u b b' : ℝ} (hu : 0 ≤ u) (hu1 : u < 1) (hb : 0 < b) (h : Rel u 1 b' b) :
    Rel u 4 (∫ t in (0 : ℝ)..b', debyeIntegrand t) (∫ t in (0 : ℝ)..b, debyeIntegrand t) := by
  have hb' : 0 < b' := h.pos hu1 hb
  obtain ⟨θ, l, r, rfl⟩ := h
  rw [pow_one] at l r
  have hθ : 0 < θ := lt_of_lt_of_le (by linarith) l
  rw [debye_integral hb, debye_integral hb']
  have hU : ∀ {c : ℝ}, 0 < c → 0 < ∫ s in (0 : ℝ)..1, unitIntegrand c s := by
    intro c hc
    have := debye_integral_pos hc
    rw [debye_integral hc] at this
    exact pos_of_mul_pos_right this (by positivity)
  set U := ∫ s in (0 : ℝ)..1, unitIntegrand b s with hUdef
  set U' := ∫ s in (0 : ℝ)..1, unitIntegrand (b * θ) s with hU'def
  have p : 0 < U := hU hb
  have p' : 0 < U' := hU hb'
  have hl4 : (1 - u) ^ 4 ≤ θ ^ 4 := pow_le_pow_left₀ (by linarith) l 4
  have hr4 : θ ^ 4 ≤ ((1 - u) ^ 4)⁻¹ := by
    rw [← inv_pow]; exact pow_le_pow_left₀ hθ.le r 4
  have hu4 : (1 - u) ^ 4 ≤ 1 := pow_le_one₀ (by linarith) (by linarith)
  have hu40 : 0 < (1 - u) ^ 4 := pow_pos (by linarith) 4
  have hi4 : 1 ≤ ((1 - u) ^ 4)⁻¹ := (one_le_inv₀ hu40).2 hu4
  refine ⟨θ ^ 4 * U' / U, ?_, ?_, by field_simp⟩
  · rw [le_div_iff₀ p]
    rcases le_total θ 1 with h1 | h1
    · have h2 : U ≤ U' := unit_anti hb' (by nlinarith)
      exact mul_le_mul hl4 h2 p.le (by positivity)
    · have h2 := unit_mono hb (show b ≤ b * θ by nlinarith)
      rw [← hUdef, ← hU'def] at h2
      have h3 : U ≤ θ * U' := by
        have : b * U ≤ b * (θ * U') := by linarith
        exact le_of_mul_le_mul_left this hb
      have h4 : θ * U' ≤ θ ^ 4 * U' := by
        refine mul_le_mul_of_nonneg_right ?_ p'.le
        calc θ = θ ^ 1 := (pow_one θ).symm
          _ ≤ θ ^ 4 := pow_le_pow_right₀ h1 (by norm_num)
      nlinarith
  · rw [div_le_iff₀ p]
    rcases le_total θ 1 with h1 | h1
    · have h2 := unit_mono hb' (show b * θ ≤ b by nlinarith)
      rw [← hUdef, ← hU'def] at h2
      have h3 : θ * U' ≤ U := by
        have : b * (θ * U') ≤ b * U := by linarith
        exact le_of_mul_le_mul_left this hb
      have h4 : θ ^ 4 * U' ≤ θ * U' := by
        refine mul_le_mul_of_nonneg_right ?_ p'.le
        calc θ ^ 4 ≤ θ ^ 1 := pow_le_pow_of_le_one hθ.le h1 (by norm_num)
          _ = θ := pow_one θ
      nlinarith
    · have h2 : U' ≤ U := unit_anti hb (by nlinarith)
      exact mul_le_mul hr4 h2 p'.le (by positivity)

variable {A : DArith} {u : ℝ}

/-- the computed integrand: nine roundings, and the cancellation in `exp(t) - 1` -/
theorem integrand_rel (hA : A.Accurate u) (hu : 0 ≤ u) (hu1 : u ≤ 1 / 10000) {t : ℝ} (ht : 0 < t) (hut : 100 * u ≤ t) :
    ∃ f', Rel u 9 (A.debyeIntegrand t) f' ∧ 0 ≤ f' ∧ |f' - debyeIntegrand t| ≤ 5 * u * (t ^ 2 * phi t) := by
  have hu1' : u < 1 := by linarith
  set X := Real.exp t with hX
  have hX1 : t + 1 < X := Real.add_one_lt_exp ht.ne'
  have hX0 : 0 < X := by positivity
  have hD0 : 0 < X - 1 := by linarith
  have he := hA.base.exp t
  rw [← hX, abs_of_pos hX0] at he
  set X' := A.exp t with hX'
  have hρ : 4 * u * X ≤ 0.05 * (X - 1) := by
    nlinarith
  have he2 := abs_le.1 he
  have hD' : 0.95 * (X - 1) ≤ X' - 1 := by linarith
  have hD'0 : 0 < X' - 1 := by linarith
  have r0 : ∀ x : ℝ, Rel u 0 x x := fun x => Rel.refl hu hu1' x
  have h1 := (r0 (X' - 1)).round hA.base.fl hu hu1'
  have h2 := ((r0 1).div hu1' h1).round hA.base.fl hu hu1'
  have h3 := (Rel.add (by positivity) (by norm_num) (h2.mono hu hu1' (show _ ≤ 2 by norm_num))
    (Rel.refl hu hu1' (0.5 : ℝ) (n := 2))).round hA.base.fl hu hu1'
  have hc : Rel u 5 (A.cube t) (t ^ 3) := Rel.weaken hu (by linarith) (hA.cube t)
  have h4 := (hc.mul hu1' h3).round hA.base.fl hu hu1'
  refine ⟨t ^ 3 * (1 / (X' - 1) + 0.5), h4.mono hu hu1' (by norm_num), by positivity, ?_⟩
  have e : t ^ 3 * (1 / (X' - 1) + 0.5) - debyeIntegrand t = t ^ 3 * ((X - X') / ((X' - 1) * (X - 1))) := by
    unfold debyeIntegrand
    rw [← hX]
    have := hD0.ne'
    have := hD'0.ne'
    field_simp
    ring
  rw [e, abs_mul, abs_of_pos (by positivity : 0 < t ^ 3), abs_div, abs_of_pos (mul_pos hD'0 hD0), abs_sub_comm]
  have hs : t < Real.sinh t := Real.self_lt_sinh_iff.2 ht
  rw [Real.sinh_eq, ← hX] at hs
  have e3 : Real.exp (-t) * X = 1 := by rw [hX, ← Real.exp_add]; simp
  have hkey : 2 * t * X ≤ (X - 1) * (X + 1) := by nlinarith
  have h5 : |X' - X| / ((X' - 1) * (X - 1)) ≤ 5 * u * (phi t / t) := by
    have e4 : phi t / t = (X + 1) / (2 * (X - 1) * t) := by
      unfold phi
      rw [← hX]
      have := hD0.ne'
      field_simp
      ring
    rw [e4, div_le_iff₀ (mul_pos hD'0 hD0)]
    have h6 : (X + 1) / (2 * (X - 1) * t) * ((X' - 1) * (X - 1)) = (X + 1) * (X' - 1) / (2 * t) := by
      have := hD0.ne'
      field_simp
    rw [mul_assoc, h6]
    have h7 : 0.95 * X ≤ (X + 1) * (X' - 1) / (2 * t) := by
      rw [le_div_iff₀ (by positivity)]
      nlinarith
    nlinarith
  calc t ^ 3 * (|X' - X| / ((X' - 1) * (X - 1))) ≤ t ^ 3 * (5 * u * (phi t / t)) := mul_le_mul_of_nonneg_left h5 (by positivity)
    _ = _ := by field_simp

/-- the computed sum -/
theorem sum_rel (hA : A.Accurate u) (hu : 0 ≤ u) (hu1 : u ≤ 1 / 10000) {b t₀ : ℝ} (ht₀ : 0 < t₀) (hut : 100 * u ≤ t₀) :
    ∀ rule : List (ℝ × ℝ), (∀ p ∈ rule, t₀ ≤ p.1 ∧ p.1 ≤ b ∧ 0 ≤ p.2) →
      ∃ S', Rel u 9 (rule.map fun p => p.2 * A.debyeIntegrand p.1).sum S' ∧ 0 ≤ S' ∧
        |S' - (rule.map fun p => p.2 * debyeIntegrand p.1).sum| ≤ 5 * u * (b ^ 2 * phi b) * (rule.map Prod.snd).sum
  | [], _ => ⟨0, by simpa using Rel.refl hu (by linarith) 0, le_rfl, by simp⟩
  | (t, w) :: rule, h => by
    obtain ⟨S', h1, h2, h3⟩ := sum_rel hA hu hu1 ht₀ hut rule fun p hp => h p (List.mem_cons_of_mem _ hp)
    obtain ⟨a1, a2, a3⟩ := h (t, w) List.mem_cons_self
    simp only at a1 a2 a3
    have ht : 0 < t := ht₀.trans_le a1
    obtain ⟨f', h4, h5, h6⟩ := integrand_rel hA hu hu1 ht (hut.trans a1)
    refine ⟨w * f' + S', ?_, by positivity, ?_⟩
    · simp only [List.map_cons, List.sum_cons]
      have := (Rel.refl hu (by linarith : u < 1) w (n := 0)).mul (by linarith) h4
      exact Rel.add (by positivity) h2 (this.mono hu (by linarith) (by norm_num)) h1
    · simp only [List.map_cons, List.sum_cons]
      have hg : t ^ 2 * phi t ≤ b ^ 2 * phi b := by
        rcases a2.eq_or_lt with rfl | hlt
        · exact le_rfl
        have := mul_phi_mono ht hlt
        have h7 : t * (t * phi t) ≤ b * (b * phi b) :=
          mul_le_mul a2 this.le (mul_pos ht (phi_pos ht)).le (ht.trans hlt).le
        linarith
      have h8 : |w * f' - w * debyeIntegrand t| ≤ 5 * u * (b ^ 2 * phi b) * w := by
        rw [← mul_sub, abs_mul, abs_of_nonneg a3, mul_comm]
        refine mul_le_mul_of_nonneg_right (h6.trans ?_) a3
        exact mul_le_mul_of_nonneg_left hg (by positivity)
      calc |w * f' + S' - (w * debyeIntegrand t + (rule.map fun p => p.2 * debyeIntegrand p.1).sum)|
          = |(w * f' - w * debyeIntegrand t) + (S' - (rule.map fun p => p.2 * debyeIntegrand p.1).sum)| := by congr 1; ring
        _ ≤ _ := (abs_add_le _ _).trans (add_le_add h8 h3)
        _ = _ := by ring

theorem quad_combine {ε κ Z S Q : ℝ} (hε : 0 ≤ ε) (hε1 : ε ≤ 1 / 10) (hκ0 : 0 ≤ κ) (hκ1 : κ ≤ 1 / 1000) (hZ : 0 < Z)
    (h1 : |S - Z| ≤ (ε + 21 * κ) * Z) (h2 : |Q - S| ≤ ε * S) : |Q - Z| ≤ (2.2 * ε + 24 * κ) * Z := by
  have h3 : S ≤ (1 + ε + 21 * κ) * Z := by have := (abs_le.1 h1).2; linarith
  have h4 : ε * S ≤ ε * ((1 + ε + 21 * κ) * Z) := mul_le_mul_of_nonneg_left h3 hε
  have h5 : ε * (1 + ε + 21 * κ) + (ε + 21 * κ) ≤ 2.2 * ε + 24 * κ := by nlinarith
  calc |Q - Z| = |(Q - S) + (S - Z)| := by congr 1; ring
    _ ≤ ε * ((1 + ε + 21 * κ) * Z) + (ε + 21 * κ) * Z := (abs_add_le _ _).trans (add_le_add (h2.trans h4) h1)
    _ = (ε * (1 + ε + 21 * κ) + (ε + 21 * κ)) * Z := by ring
    _ ≤ _ := mul_le_mul_of_nonneg_right h5 hZ.le

set_option maxHeartbeats 1000000 in
/-- C180: the computed effective temperature has a relative error of at most three times that of the quadrature, 40 roundings, and 50 roundings
times the ratio of temperature and Debye temperature (cancellation in `exp(t) - 1`). -/
theorem C180_accuracy (hA : A.Accurate u) (hu : 0 ≤ u) (hu1 : u ≤ 1 / 10000) {quad : (ℝ → ℝ) → ℝ → ℝ → ℝ} {T TD t₀ ε : ℝ} (hT : 0 < T)
    (hD : 0 < TD) (hTD : 1000 * u * T ≤ TD) (hε : 0 ≤ ε) (hε1 : ε ≤ 1 / 10) (ht₀ : 0 < t₀) (hut : 100 * u ≤ t₀)
    (hq : QuadUses quad A.debyeIntegrand (A.fl (TD / T)) t₀ ε) :
    ∃ Te Te', debyeTemperature T TD = .ok Te ∧ A.debyeTemperature quad T TD = .ok Te' ∧
      |Te' - Te| ≤ (3 * ε + 40 * u + 50 * u * (T / TD)) * Te := by
  have hu1' : u < 1 := by linarith
  have r0 : ∀ x : ℝ, Rel u 0 x x := fun x => Rel.refl hu hu1' x
  obtain ⟨rule, hr, hq⟩ := hq
  set b := TD / T with hb
  set b' := A.fl b with hb'
  have hb0 : 0 < b := div_pos hD hT
  have rb : Rel u 1 b' b := (r0 b).round hA.base.fl hu hu1'
  have hb'0 := rb.pos hu1' hb0
  have rI := integral_rel hu hu1' hb0 rb
  have hI0 := debye_integral_pos hb0
  have hI'0 := debye_integral_pos hb'0
  have hq4 := quarter_le hb'0
  set I := ∫ t in (0 : ℝ)..b, debyeIntegrand t with hI
  set I' := ∫ t in (0 : ℝ)..b', debyeIntegrand t with hI'
  obtain ⟨S', s1, s2, s3⟩ := sum_rel hA hu hu1 ht₀ hut rule hr.nodes
  have hex := hr.exact
  rw [← hI'] at hex
  set S := (rule.map fun p => p.2 * debyeIntegrand p.1).sum
  set Sc := (rule.map fun p => p.2 * A.debyeIntegrand p.1).sum
  set Q := quad A.debyeIntegrand 0 b'
  -- the sum over exact values against the integral
  have hb1 : 0.99 * b ≤ b' := by
    obtain ⟨θ, l, -, e⟩ := rb
    rw [pow_one] at l
    rw [e]; nlinarith
  have h20 : |S' - S| ≤ 21 * u * (T / TD) * I' := by
    have h1 : 5 * u * (b' ^ 2 * phi b') * (rule.map Prod.snd).sum ≤ 5 * u * (b' ^ 2 * phi b') * b' :=
      mul_le_mul_of_nonneg_left hr.total (by have := phi_pos hb'0; positivity)
    have h2 : b' ^ 2 * phi b' * b' * b' ≤ 4 * I' := by
      rw [debyeIntegrand_phi] at hq4; linarith
    have h3 : b' ^ 2 * phi b' * b' ≤ 4.1 * (T / TD) * I' := by
      have e : T / TD = 1 / b := by rw [hb, one_div_div]
      rw [e]
      have h4 : b' ^ 2 * phi b' * b' ≤ 4 * I' / b' := by rw [le_div_iff₀ hb'0]; exact h2
      refine h4.trans ?_
      rw [div_le_iff₀ hb'0]
      have h5 : 1 ≤ 1.02 * (1 / b * b') := by
        rw [one_div, ← mul_assoc]
        have : b⁻¹ * b = 1 := inv_mul_cancel₀ hb0.ne'
        have hbi : 0 < b⁻¹ := inv_pos.2 hb0
        nlinarith
      nlinarith
    refine s3.trans (h1.trans ?_)
    calc 5 * u * (b' ^ 2 * phi b') * b' = 5 * u * (b' ^ 2 * phi b' * b') := by ring
      _ ≤ 5 * u * (4.1 * (T / TD) * I') := mul_le_mul_of_nonneg_left h3 (by positivity)
      _ ≤ _ := by have : 0 ≤ u * (T / TD) * I' := by positivity
                  nlinarith
  set κ := u * (T / TD) with hκ
  have hκ0 : 0 ≤ κ := by positivity
  have hκ1 : κ ≤ 1 / 1000 := by
    rw [hκ, ← mul_div_assoc, div_le_iff₀ hD]; linarith
  have h21 : |S' - I'| ≤ (ε + 21 * κ) * I' := by
    calc |S' - I'| = |(S' - S) + (S - I')| := by congr 1; ring
      _ ≤ 21 * u * (T / TD) * I' + ε * I' := (abs_add_le _ _).trans (add_le_add h20 hex)
      _ = _ := by rw [hκ]; ring
  -- factors
  have hx : Rel u 1 (A.fl (T / TD)) (T / TD) := (r0 _).round hA.base.fl hu hu1'
  have hcube : Rel u 8 (A.cube (A.fl (T / TD))) ((T / TD) ^ 3) := by
    have h1 : Rel u 5 (A.cube (A.fl (T / TD))) (A.fl (T / TD) ^ 3) := Rel.weaken hu (by linarith) (hA.cube _)
    have h2 := hx.pow hu1' 3
    obtain ⟨θ, l, r, e⟩ := h1
    obtain ⟨θ', l', r', e'⟩ := h2
    have h3 : Rel u 5 (1 * θ) 1 := ⟨θ, l, r, rfl⟩
    have h4 : Rel u (3 * 1) ((T / TD) ^ 3 * θ') ((T / TD) ^ 3) := ⟨θ', l', r', rfl⟩
    have h5 := h3.mul hu1' h4
    rw [e, e']
    have e6 : (T / TD) ^ 3 * θ' * θ = 1 * θ * ((T / TD) ^ 3 * θ') := by ring
    rw [e6]
    rw [one_mul ((T / TD) ^ 3)] at h5
    exact h5
  have hf := (((r0 3).mul hu1' hcube).round hA.base.fl hu hu1')
  have hf2 := (hf.mul hu1' (r0 T)).round hA.base.fl hu hu1'
  have hf3 := (hf2.mul hu1' (r0 Q)).round hA.base.fl hu hu1'
  refine ⟨3 * (T / TD) ^ 3 * T * I, _, by unfold debyeTemperature; rw [if_neg hD.ne', if_neg hT.ne', hI, hb],
    by simp only [DArith.debyeTemperature, RArith.div, if_neg hD.ne', if_neg hT.ne', Bind.bind, Except.bind]; rfl, ?_⟩
  set P := 3 * (T / TD) ^ 3 * T with hP
  have hP0 : 0 < P := by positivity
  -- all roundings together: the result is `P * S' * (1 + η)` up to roundings
  obtain ⟨θ1, l1, r1, e1⟩ := s1
  obtain ⟨θ2, l2, r2, e2⟩ := rI
  have hθ1 : 0 < θ1 := (pow_pos (by linarith) 9).trans_le l1
  have hθ2 : 0 < θ2 := (pow_pos (by linarith) 4).trans_le l2
  have hSc : 0 ≤ Sc := by rw [e1]; positivity
  rw [abs_of_nonneg hSc] at hq
  have hQ : |Q - I' * θ1| ≤ (2.2 * ε + 24 * κ) * (I' * θ1) := by
    have h1 : |Sc - I' * θ1| ≤ (ε + 21 * κ) * (I' * θ1) := by
      rw [e1, ← sub_mul, abs_mul, abs_of_pos hθ1]
      calc _ ≤ (ε + 21 * κ) * I' * θ1 := mul_le_mul_of_nonneg_right h21 hθ1.le
        _ = _ := by ring
    exact quad_combine hε hε1 hκ0 hκ1 (by positivity) h1 hq
  have hR : Rel u (11 + 9 + 4) (A.fl (A.fl (A.fl (3 * A.cube (A.fl (T / TD))) * T) * Q)) (P * I * (Q / (I' * θ1))) := by
    have h1 : Rel u 9 (1 * θ1) 1 := ⟨θ1, l1, r1, rfl⟩
    have h2 : Rel u 4 (1 * θ2) 1 := ⟨θ2, l2, r2, rfl⟩
    have h3 := ((hf3.mono hu hu1' (show _ ≤ 11 by norm_num)).mul hu1' h1).mul hu1' h2
    obtain ⟨θ, l, r, e⟩ := hf3.mono hu hu1' (show _ ≤ 11 by norm_num)
    have h4 : Rel u 11 (1 * θ) 1 := ⟨θ, l, r, rfl⟩
    have h5 := (h4.mul hu1' h1).mul hu1' h2
    obtain ⟨θ', l', r', e'⟩ := h5
    refine ⟨θ', l', r', ?_⟩
    rw [e]
    have e6 : θ' = θ * θ1 * θ2 := by linarith [e', (by ring : 1 * θ * (1 * θ1) * (1 * θ2) = θ * θ1 * θ2)]
    rw [e6]
    have e7 : I' = I * θ2 := e2
    rw [e7]
    have := hI0.ne'
    field_simp
  have hR2 := hR.abs_le hu (by push_cast; linarith)
  set Te' := A.fl (A.fl (A.fl (3 * A.cube (A.fl (T / TD))) * T) * Q)
  set q := Q / (I' * θ1) with hqdef
  have hq1 : |q - 1| ≤ 2.2 * ε + 24 * κ := by
    have hZ : 0 < I' * θ1 := by positivity
    have e : q - 1 = (Q - I' * θ1) / (I' * θ1) := by rw [hqdef]; field_simp
    rw [e, abs_div, abs_of_pos hZ, div_le_iff₀ hZ]; exact hQ
  have hPI : 0 < P * I := by positivity
  have hq2 := abs_le.1 hq1
  have hq3 : |q| ≤ 1.3 := by rw [abs_le]; constructor <;> linarith
  rw [abs_mul, abs_of_pos hPI] at hR2
  push_cast at hR2
  calc |Te' - P * I| = |(Te' - P * I * q) + P * I * (q - 1)| := by congr 1; ring
    _ ≤ 1.01 * 24 * u * (P * I * |q|) + P * I * (2.2 * ε + 24 * κ) := by
        refine (abs_add_le _ _).trans (add_le_add hR2 ?_)
        rw [abs_mul, abs_of_pos hPI]
        exact mul_le_mul_of_nonneg_left hq1 hPI.le
    _ ≤ 1.01 * 24 * u * (P * I * 1.3) + P * I * (2.2 * ε + 24 * κ) := by
        gcongr
    _ ≤ (3 * ε + 40 * u + 50 * u * (T / TD)) * (P * I) := by
        have e : 50 * u * (T / TD) = 50 * κ := by rw [hκ]; ring
        rw [e]
        nlinarith [mul_nonneg hε hPI.le, mul_nonneg hκ0 hPI.le, mul_nonneg hu hPI.le]

/-- C180: the bounds of the effective temperature (C36) hold for the computed one up to its error; in particular it is positive, and no
thermal motion is lost at low temperatures. -/
theorem C180_bounds (hA : A.Accurate u) (hu : 0 ≤ u) (hu1 : u ≤ 1 / 10000) {quad : (ℝ → ℝ) → ℝ → ℝ → ℝ} {T TD t₀ ε : ℝ} (hT : 0 < T)
    (hD : 0 < TD) (hTD : 1000 * u * T ≤ TD) (hε : 0 ≤ ε) (hε1 : ε ≤ 1 / 10) (ht₀ : 0 < t₀) (hut : 100 * u ≤ t₀)
    (hq : QuadUses quad A.debyeIntegrand (A.fl (TD / T)) t₀ ε) :
    ∃ Te', A.debyeTemperature quad T TD = .ok Te' ∧ (1 - (3 * ε + 40 * u + 50 * u * (T / TD))) * max T (3 / 8 * TD) ≤ Te' ∧
      Te' ≤ (1 + (3 * ε + 40 * u + 50 * u * (T / TD))) * (T + 3 / 8 * TD) ∧ 0 < Te' := by
  obtain ⟨Te, Te', h1, h2, h3⟩ := C180_accuracy hA hu hu1 hT hD hTD hε hε1 ht₀ hut hq
  obtain ⟨Te0, h4, h5, h6⟩ := C36_bounds hT hD
  rw [h1] at h4
  obtain rfl := Except.ok.inj h4
  have hκ : u * (T / TD) ≤ 1 / 1000 := by rw [← mul_div_assoc, div_le_iff₀ hD]; linarith
  have hκ0 : 0 ≤ u * (T / TD) := by positivity
  set δ := 3 * ε + 40 * u + 50 * u * (T / TD) with hδ
  have hδ0 : 0 ≤ δ := by rw [hδ]; nlinarith
  have hδ1 : δ ≤ 1 / 2 := by rw [hδ]; nlinarith
  have hm : 0 < max T (3 / 8 * TD) := lt_max_of_lt_left hT
  have h7 := abs_le.1 h3
  refine ⟨Te', h2, ?_, ?_, ?_⟩ <;> nlinarith

/-- For every interval there is a rule without any error, with a node in the upper half (mean value theorem). -/
theorem exists_debyeRule {b : ℝ} (hb : 0 < b) : ∃ rule, IsDebyeRule rule b (b / 2) 0 := by
  have hcont : ContinuousOn debyeIntegrand (Icc 0 b) := debyeIntegrand_continuousOn.mono fun t ht => ht.1
  have hI := quarter_le hb
  have hI0 := debye_integral_pos hb
  have hup : ∫ t in (0 : ℝ)..b, debyeIntegrand t ≤ b * debyeIntegrand b := by
    have h := intervalIntegral.integral_mono_on (f := debyeIntegrand) (g := fun _ => debyeIntegrand b) hb.le
      (ContinuousOn.intervalIntegrable (by rw [uIcc_of_le hb.le]; exact hcont)) (intervalIntegrable_const (μ := volume)) fun t ht => by
        rcases ht.1.eq_or_lt with rfl | h0
        · have := phi_pos hb
          rw [debyeIntegrand_phi, debyeIntegrand_phi]
          have : 0 ≤ b ^ 3 * phi b := by positivity
          simpa using this
        rcases ht.2.eq_or_lt with rfl | h1
        · exact le_rfl
        have := mul_phi_mono h0 h1
        have hp := phi_pos h0
        rw [debyeIntegrand_phi, debyeIntegrand_phi]
        calc t ^ 3 * phi t = t ^ 2 * (t * phi t) := by ring
          _ ≤ b ^ 2 * (b * phi b) := mul_le_mul (pow_le_pow_left₀ h0.le ht.2 2) this.le (by positivity) (by positivity)
          _ = _ := by ring
    simpa using h
  set I := ∫ t in (0 : ℝ)..b, debyeIntegrand t with hIdef
  have h0 : debyeIntegrand 0 = 0 := by simp [debyeIntegrand]
  obtain ⟨t, ht, hft⟩ := intermediate_value_Icc hb.le hcont (show I / b ∈ Icc (debyeIntegrand 0) (debyeIntegrand b) from
    ⟨by rw [h0]; positivity, by rw [div_le_iff₀ hb]; linarith⟩)
  refine ⟨[(t, b)], ?_, by simp, ?_⟩
  · intro p hp
    obtain rfl := List.mem_singleton.1 hp
    refine ⟨?_, ht.2, hb.le⟩
    by_contra hlt
    push Not at hlt
    simp only at hlt
    have ht0 : 0 < t := by
      rcases ht.1.eq_or_lt with h | h
      · rw [← h, h0] at hft
        have : 0 < I / b := by positivity
        linarith
      · exact h
    have h1 := mul_phi_mono ht0 (show t < b by linarith)
    have h2 : debyeIntegrand t = t ^ 2 * (t * phi t) := by rw [debyeIntegrand_phi]; ring
    have h3 : debyeIntegrand b = b ^ 2 * (b * phi b) := by rw [debyeIntegrand_phi]; ring
    have h4 : debyeIntegrand b / 4 ≤ debyeIntegrand t := by rw [hft, le_div_iff₀ hb]; linarith
    rw [h2, h3] at h4
    have hp := phi_pos ht0
    have hpb := phi_pos hb
    have h5 : t ^ 2 < b ^ 2 / 4 := by nlinarith
    have h6 : t ^ 2 * (t * phi t) < b ^ 2 / 4 * (b * phi b) :=
      mul_lt_mul' h5.le h1 (by positivity) (by positivity) |>.trans_le le_rfl
    linarith
  · have : b * debyeIntegrand t = I := by rw [hft]; field_simp
    simp [this, ← hIdef]

/-- Correctly rounded doubles, a tungsten target at room temperature: the hypotheses can be met, and the error is a few times 1e-14. -/
example : ∃ (A : DArith) (quad : (ℝ → ℝ) → ℝ → ℝ → ℝ), A.fl = KN.rn ∧ ∃ Te Te', debyeTemperature 293 312 = .ok Te ∧
    A.debyeTemperature quad 293 312 = .ok Te' ∧ |Te' - Te| ≤ 1e-14 * Te := by
  have hA : DArith.Accurate (1 / 2 ^ 53) ⟨exRArith, fun x => x ^ 3⟩ :=
    ⟨exRArith_accurate, fun x => by simp⟩
  set A : DArith := ⟨exRArith, fun x => x ^ 3⟩ with hAdef
  have hb : 0 < A.fl (312 / 293) :=
    ((Rel.refl (by norm_num) (by norm_num) _ (n := 0)).round hA.base.fl (by norm_num) (by norm_num) : Rel (1 / 2 ^ 53) 1 _ _).pos
      (by norm_num) (by norm_num)
  have hb2 : (1 : ℝ) / 2 ≤ A.fl (312 / 293) := by
    have := hA.base.fl (312 / 293)
    rw [abs_of_pos (by norm_num : (0 : ℝ) < 312 / 293)] at this
    have := (abs_le.1 this).1
    norm_num at this ⊢
    linarith
  obtain ⟨rule, hr⟩ := exists_debyeRule hb
  obtain ⟨Te, Te', h1, h2, h3⟩ := C180_accuracy hA (by norm_num) (by norm_num) (T := 293) (TD := 312) (ε := 0) (t₀ := 1 / 4)
    (quad := fun g _ b => (rule.map fun p => p.2 * g p.1).sum) (by norm_num) (by norm_num) (by norm_num) le_rfl (by norm_num) (by norm_num)
    (by norm_num) ⟨rule, ⟨fun p hp => ⟨by have := (hr.nodes p hp).1; linarith, (hr.nodes p hp).2⟩, hr.total, hr.exact⟩, by simp⟩
  refine ⟨A, _, rfl, Te, Te', h1, h2, h3.trans (mul_le_mul_of_nonneg_right (by norm_num) ?_)⟩
  obtain ⟨Te0, h4, h5, -⟩ := C36_bounds (T := 293) (TD := 312) (by norm_num) (by norm_num)
  rw [h1] at h4
  obtain rfl := Except.ok.inj h4
  have := lt_of_le_of_lt (le_max_left _ _) h5
  linarith

end Ries
