import Verif.Model.KleinNishina
import Mathlib.Analysis.SpecialFunctions.Integrals.Basic
import Mathlib.Tactic.FieldSimp

namespace Ries.KN
open Real

/-- the kernel in terms of `t = E/E'` with `x = E/m`: `t⁻² (1/t + t - 1 + (1 - (t-1)/x)²)` -/
noncomputable def kern (x t : ℝ) : ℝ := (1 / t) * (1 / t) * (1 / t + t - (1 - (1 - (t - 1) / x) ^ 2))

/-- antiderivative of `kern x` -/
noncomputable def prim (x t : ℝ) : ℝ :=
  -1 / (2 * t ^ 2) + log t + 1 / t - (1 + 1 / x) ^ 2 / t - 2 * (1 + 1 / x) / x * log t + t / x ^ 2

theorem prim_deriv {x t : ℝ} (hx : x ≠ 0) (ht : 0 < t) : HasDerivAt (prim x) (kern x t) t := by
  have ht' := ht.ne'
  have h1 : HasDerivAt (fun t : ℝ => -1 / (2 * t ^ 2)) (1 / t ^ 3) t := by
    have := ((hasDerivAt_pow 2 t).const_mul 2).inv (by positivity) |>.const_mul (-1)
    refine (this.congr_deriv ?_).congr_of_eventuallyEq (Filter.Eventually.of_forall fun s => ?_)
    · field_simp; ring
    · simp [div_eq_mul_inv]
  have h2 := hasDerivAt_log ht'
  have h3 : HasDerivAt (fun t : ℝ => 1 / t) (-1 / t ^ 2) t := by
    have := hasDerivAt_inv ht'
    refine (this.congr_deriv ?_).congr_of_eventuallyEq (Filter.Eventually.of_forall fun s => ?_)
    · field_simp
    · simp
  have h4 : HasDerivAt (fun t : ℝ => (1 + 1 / x) ^ 2 / t) ((1 + 1 / x) ^ 2 * (-1 / t ^ 2)) t := by
    refine (h3.const_mul ((1 + 1 / x) ^ 2)).congr_of_eventuallyEq (Filter.Eventually.of_forall fun s => ?_)
    simp [div_eq_mul_inv]
  have h5 := (hasDerivAt_id t).div_const (x ^ 2)
  have := ((((h1.add h2).add h3).sub h4).sub (h2.const_mul (2 * (1 + 1 / x) / x))).add h5
  refine this.congr_deriv ?_
  unfold kern
  field_simp
  ring

theorem prim_diff {x : ℝ} (hx : 0 < x) :
    (prim x (1 + 2 * x) - prim x 1) / x =
      x ^ (-3 : ℤ) * ((2 * x * (2 + x * (1 + x) * (8 + x))) / ((1 + 2 * x) ^ 2)
      + ((x - 2) * x - 2) * log (1 + 2 * x)) := by
  have h1 : (1 + 2 * x) ≠ 0 := by positivity
  have h2 : x ^ (-3 : ℤ) = 1 / x ^ 3 := by
    rw [zpow_neg]; norm_cast; simp
  rw [h2]
  simp only [prim, log_one]
  field_simp
  ring


variable (k : PhysConst)

theorem cos_le (θ : ℝ) : 0 ≤ 1 - cos θ ∧ 1 - cos θ ≤ 2 :=
  ⟨by linarith [cos_le_one θ], by linarith [neg_one_le_cos θ]⟩

theorem t_pos {x : ℝ} (hx : 0 ≤ x) (θ : ℝ) : 1 ≤ 1 + x * (1 - cos θ) := by
  have := mul_nonneg hx (cos_le θ).1; linarith

/-- the angular kernel for a ratio `r` -/
noncomputable def ang (r θ : ℝ) : ℝ := (r ^ 3 + r - r ^ 2 * sin θ ^ 2) * sin θ

/-- ratio as a function of `x = E/m` -/
noncomputable def rat (x θ : ℝ) : ℝ := 1 / (1 + x * (1 - cos θ))

/-- reduced total cross section -/
noncomputable def angInt (x : ℝ) : ℝ := ∫ θ in (0 : ℝ)..π, ang (rat x θ) θ

theorem rat_pos {x : ℝ} (hx : 0 ≤ x) (θ : ℝ) : 0 < rat x θ :=
  div_pos one_pos (lt_of_lt_of_le one_pos (t_pos hx θ))

theorem rat_le_one {x : ℝ} (hx : 0 ≤ x) (θ : ℝ) : rat x θ ≤ 1 := by
  unfold rat; rw [div_le_one (lt_of_lt_of_le one_pos (t_pos hx θ))]; exact t_pos hx θ

theorem rat_cont {x : ℝ} (hx : 0 ≤ x) : Continuous (rat x) := by
  unfold rat
  exact continuous_const.div (by fun_prop) (fun θ => (lt_of_lt_of_le one_pos (t_pos hx θ)).ne')

theorem ang_cont {x : ℝ} (hx : 0 ≤ x) : Continuous (fun θ => ang (rat x θ) θ) := by
  unfold ang
  have := rat_cont hx
  fun_prop

theorem ang_eq_kern {x : ℝ} (hx : 0 < x) (θ : ℝ) :
    ang (rat x θ) θ = kern x (1 + x * (1 - cos θ)) * sin θ := by
  unfold ang kern rat
  have ht := (lt_of_lt_of_le one_pos (t_pos hx.le θ)).ne'
  have e : 1 - (1 + x * (1 - cos θ) - 1) / x = cos θ := by field_simp; ring
  rw [e, sin_sq]
  field_simp

theorem angInt_eq {x : ℝ} (hx : 0 < x) : angInt x = (prim x (1 + 2 * x) - prim x 1) / x := by
  unfold angInt
  have hd : ∀ θ ∈ Set.uIcc (0:ℝ) π,
      HasDerivAt (fun θ => prim x (1 + x * (1 - cos θ)) / x) (ang (rat x θ) θ) θ := by
    intro θ _
    have ht := lt_of_lt_of_le one_pos (t_pos hx.le θ)
    have h1 : HasDerivAt (fun θ => 1 + x * (1 - cos θ)) (x * sin θ) θ := by
      have := (((hasDerivAt_cos θ).const_sub 1).const_mul x).const_add 1
      exact this.congr_deriv (by ring)
    have h2 := ((prim_deriv hx.ne' ht).comp θ h1).div_const x
    refine h2.congr_deriv ?_
    rw [ang_eq_kern hx]; field_simp
  rw [intervalIntegral.integral_eq_sub_of_hasDerivAt hd ((ang_cont hx.le).intervalIntegrable _ _)]
  simp only [cos_pi, cos_zero]
  have : 1 + x * (1 - -1) = 1 + 2 * x := by ring
  rw [this]; simp; ring

theorem ang_strictMono {θ : ℝ} (h0 : 0 < sin θ) : StrictMonoOn (fun r => ang r θ) (Set.Ici 0) := by
  intro r hr s hs hrs
  simp only [Set.mem_Ici] at hr hs
  unfold ang
  apply mul_lt_mul_of_pos_right _ h0
  have h1 : sin θ ^ 2 ≤ 1 := sin_sq_le_one θ
  have h2 : 0 ≤ sin θ ^ 2 := sq_nonneg _
  have key : (s ^ 3 + s - s ^ 2 * sin θ ^ 2) - (r ^ 3 + r - r ^ 2 * sin θ ^ 2) =
      (s - r) * (s ^ 2 + s * r + r ^ 2 + 1 - (s + r) * sin θ ^ 2) := by ring
  have : 0 < s ^ 2 + s * r + r ^ 2 + 1 - (s + r) * sin θ ^ 2 := by
    have : (s + r) * sin θ ^ 2 ≤ (s + r) * 1 := mul_le_mul_of_nonneg_left h1 (by linarith)
    nlinarith [sq_nonneg (s - 1 / 2), sq_nonneg (r - 1 / 2), mul_nonneg hr hs]
  have := mul_pos (sub_pos.2 hrs) this
  linarith

theorem rat_strictAnti {θ : ℝ} (h : cos θ < 1) : StrictAntiOn (fun x => rat x θ) (Set.Ici 0) := by
  intro x hx y hy hxy
  simp only [Set.mem_Ici] at hx hy
  unfold rat
  apply one_div_lt_one_div_of_lt (lt_of_lt_of_le one_pos (t_pos hx θ))
  have := mul_lt_mul_of_pos_right hxy (sub_pos.2 h)
  linarith

theorem cos_lt_one {θ : ℝ} (h0 : 0 < θ) (h1 : θ < π) : cos θ < 1 := by
  have := strictAntiOn_cos ⟨le_rfl, pi_pos.le⟩ ⟨h0.le, h1.le⟩ h0
  simpa using this

theorem angInt_strictAnti : StrictAntiOn angInt (Set.Ici 0) := by
  intro x hx y hy hxy
  simp only [Set.mem_Ici] at hx hy
  unfold angInt
  refine intervalIntegral.integral_lt_integral_of_continuousOn_of_le_of_exists_lt pi_pos
    (ang_cont hy).continuousOn (ang_cont hx).continuousOn ?_ ⟨π / 2, ⟨by positivity, by linarith [pi_pos]⟩, ?_⟩
  · intro θ hθ
    rcases eq_or_lt_of_le hθ.2 with h | h
    · subst h; simp [ang]
    · have hs := sin_pos_of_pos_of_lt_pi hθ.1 h
      exact ((ang_strictMono hs) (rat_pos hy θ).le (rat_pos hx θ).le
        (rat_strictAnti (cos_lt_one hθ.1 h) hx hy hxy)).le
  · have h1 : 0 < π / 2 := by positivity
    have h2 : π / 2 < π := by linarith [pi_pos]
    exact (ang_strictMono (sin_pos_of_pos_of_lt_pi h1 h2)) (rat_pos hy _).le (rat_pos hx _).le
        (rat_strictAnti (cos_lt_one h1 h2) hx hy hxy)

theorem angInt_zero : angInt 0 = 8 / 3 := by
  unfold angInt ang rat
  have : ∀ θ : ℝ, ((1 / (1 + 0 * (1 - cos θ))) ^ 3 + 1 / (1 + 0 * (1 - cos θ)) -
      (1 / (1 + 0 * (1 - cos θ))) ^ 2 * sin θ ^ 2) * sin θ = 2 * sin θ - sin θ ^ 3 := by
    intro θ; simp; ring
  simp only [this]
  rw [intervalIntegral.integral_sub (by apply Continuous.intervalIntegrable; fun_prop)
    (by apply Continuous.intervalIntegrable; fun_prop), intervalIntegral.integral_const_mul,
    integral_sin, integral_sin_pow_three]
  simp; norm_num

/-- constant-ratio lower bound -/
theorem ang_const_integral (r : ℝ) : ∫ θ in (0:ℝ)..π, ang r θ = 2 * (r ^ 3 + r) - 4 / 3 * r ^ 2 := by
  unfold ang
  have : ∀ θ : ℝ, (r ^ 3 + r - r ^ 2 * sin θ ^ 2) * sin θ = (r ^ 3 + r) * sin θ - r ^ 2 * sin θ ^ 3 := by
    intro θ; ring
  simp only [this]
  rw [intervalIntegral.integral_sub (by apply Continuous.intervalIntegrable; fun_prop)
    (by apply Continuous.intervalIntegrable; fun_prop), intervalIntegral.integral_const_mul,
    intervalIntegral.integral_const_mul, integral_sin, integral_sin_pow_three]
  simp; ring

theorem angInt_lower {x : ℝ} (hx : 0 ≤ x) :
    2 * ((1 / (1 + 2 * x)) ^ 3 + 1 / (1 + 2 * x)) - 4 / 3 * (1 / (1 + 2 * x)) ^ 2 ≤ angInt x := by
  rw [← ang_const_integral]
  unfold angInt
  refine intervalIntegral.integral_mono_on pi_pos.le
    (by unfold ang; apply Continuous.intervalIntegrable; fun_prop)
    ((ang_cont hx).intervalIntegrable _ _) ?_
  intro θ hθ
  rcases eq_or_lt_of_le hθ.2 with h | h
  · subst h; simp [ang]
  rcases eq_or_lt_of_le hθ.1 with h' | h'
  · rw [← h']; simp [ang]
  have hs := sin_pos_of_pos_of_lt_pi h' h
  have hle : 1 / (1 + 2 * x) ≤ rat x θ := by
    unfold rat
    apply one_div_le_one_div_of_le (lt_of_lt_of_le one_pos (t_pos hx θ))
    nlinarith [mul_nonneg hx (sub_nonneg.2 (cos_le θ).2)]
  exact (ang_strictMono hs).monotoneOn (by simp; positivity) (rat_pos hx θ).le hle

theorem angInt_pos {x : ℝ} (hx : 0 ≤ x) : 0 < angInt x := by
  refine lt_of_lt_of_le ?_ (angInt_lower hx)
  set r := 1 / (1 + 2 * x) with hr
  have : 0 < r := by positivity
  nlinarith [sq_nonneg (r - 1 / 3), mul_pos this this, sq_nonneg (r-1), mul_pos this (mul_pos this this)]

theorem total_eq (s : KN) {E : ℝ} (hE : 0 < E) (hm : 0 < s.mc2) :
    s.total k E = π * s.scale k * angInt (E / s.mc2) := by
  have hx : 0 < E / s.mc2 := div_pos hE hm
  unfold total
  rw [angInt_eq hx, prim_diff hx]; ring

theorem EpOverE_eq (E θ : ℝ) : EpOverE k E θ = rat (E / k.me) θ := rfl

theorem dTheta_eq (s : KN) {E : ℝ} (hE : 0 ≤ E) (θ : ℝ) :
    s.dTheta k E θ = π * s.scale k * ang (rat (E / k.me) θ) θ := by
  unfold dTheta dOmegaUnpol ang
  rw [EpOverE_eq]
  have := (rat_pos (div_nonneg hE k.me_pos.le) θ).ne'
  field_simp

theorem integral_cos_sq_2pi : ∫ φ in (0:ℝ)..(2 * π), cos φ ^ 2 = π := by
  rw [integral_cos_sq]; simp

theorem dOmega_phi (s : KN) (E θ : ℝ) :
    ∫ φ in (0:ℝ)..(2 * π), s.dOmega k E θ φ = s.dOmegaUnpol k E θ := by
  unfold dOmega dOmegaUnpol
  have : ∀ φ, 0.5 * s.scale k * EpOverE k E θ * EpOverE k E θ *
      (EpOverE k E θ + 1 / EpOverE k E θ - 2 * sin θ ^ 2 * cos φ ^ 2) =
      0.5 * s.scale k * EpOverE k E θ * EpOverE k E θ * (EpOverE k E θ + 1 / EpOverE k E θ) -
      (0.5 * s.scale k * EpOverE k E θ * EpOverE k E θ * 2 * sin θ ^ 2) * cos φ ^ 2 := by
    intro φ; ring
  simp only [this]
  rw [intervalIntegral.integral_sub (by simp) (by apply Continuous.intervalIntegrable; fun_prop),
    intervalIntegral.integral_const, intervalIntegral.integral_const_mul, integral_cos_sq_2pi]
  simp; ring

/-- the argument of arccos is in range for physical scattered energies -/
theorem theta_cos {E Ep : ℝ} (hE : 0 < E) (h1 : comptonEdge k E ≤ Ep) (h2 : Ep ≤ E) :
    0 < Ep ∧ -1 ≤ 1 - (E / Ep - 1) * k.me / E ∧ 1 - (E / Ep - 1) * k.me / E ≤ 1 := by
  have hm := k.me_pos
  have hedge : comptonEdge k E = E / (1 + 2 * (E / k.me)) := by
    unfold comptonEdge EpOverE; simp
    have : 1 + E / k.me * (1 + 1) = 1 + 2 * (E / k.me) := by ring
    rw [this]; field_simp
  have hden : 0 < 1 + 2 * (E / k.me) := by positivity
  have hp : 0 < Ep := lt_of_lt_of_le (by rw [hedge]; positivity) h1
  refine ⟨hp, ?_, ?_⟩
  · rw [hedge, div_le_iff₀ hden] at h1
    have : (E / Ep - 1) * k.me / E ≤ 2 := by
      rw [div_le_iff₀ hE, sub_mul, one_mul, sub_le_iff_le_add, div_mul_eq_mul_div, div_le_iff₀ hp]
      have : E * k.me ≤ Ep * (1 + 2 * (E / k.me)) * k.me := mul_le_mul_of_nonneg_right h1 hm.le
      have e : Ep * (1 + 2 * (E / k.me)) * k.me = (2 * E + k.me) * Ep := by field_simp; ring
      linarith
    linarith
  · have : 0 ≤ (E / Ep - 1) * k.me / E := by
      have : 1 ≤ E / Ep := by rwa [le_div_iff₀ hp, one_mul]
      have := sub_nonneg.2 this
      positivity
    linarith

theorem EpOverE_theta {E Ep : ℝ} (hE : 0 < E) (h1 : comptonEdge k E ≤ Ep) (h2 : Ep ≤ E) :
    EpOverE k E (theta k E Ep) = Ep / E := by
  obtain ⟨hp, ha, hb⟩ := theta_cos k hE h1 h2
  have := k.me_pos
  unfold EpOverE theta
  rw [cos_arccos ha hb]
  have hm := k.me_pos.ne'
  have e : 1 + E / k.me * (1 - (1 - (E / Ep - 1) * k.me / E)) = E / Ep := by
    have : E / k.me * (1 - (1 - (E / Ep - 1) * k.me / E)) = E / Ep - 1 := by
      rw [sub_sub_cancel]; field_simp
    rw [this]; ring
  rw [e, one_div_div]

theorem dEp_eq (s : KN) {E Ep : ℝ} (hE : 0 < E) (h1 : comptonEdge k E ≤ Ep) (h2 : Ep ≤ E) :
    s.dEp k E Ep = π * s.scale k * (kern (E / k.me) (E / Ep) * (k.me / Ep ^ 2)) := by
  obtain ⟨hp, ha, hb⟩ := theta_cos k hE h1 h2
  have hm := k.me_pos
  unfold dEp dOmegaUnpol
  simp only [EpOverE_theta k hE h1 h2]
  unfold theta kern
  rw [sin_arccos, sq_sqrt (by nlinarith)]
  have : (E / Ep - 1) / (E / k.me) = (E / Ep - 1) * k.me / E := by field_simp
  rw [this]
  have : 1 / (E / Ep) = Ep / E := by field_simp
  rw [this]
  have : E / Ep = 1 / (Ep / E) := by field_simp
  field_simp

theorem edge_eq (E : ℝ) : comptonEdge k E = E / (1 + 2 * (E / k.me)) := by
  unfold comptonEdge EpOverE; simp
  have : 1 + E / k.me * (1 + 1) = 1 + 2 * (E / k.me) := by ring
  rw [this]; field_simp

theorem edge_pos {E : ℝ} (hE : 0 < E) : 0 < comptonEdge k E := by
  have := k.me_pos
  rw [edge_eq]; positivity

theorem edge_le {E : ℝ} (hE : 0 < E) : comptonEdge k E ≤ E := by
  have := k.me_pos
  rw [edge_eq, div_le_iff₀ (by positivity)]
  have : 0 ≤ E * (2 * (E / k.me)) := by positivity
  linarith

theorem dEp_integral (s : KN) {E : ℝ} (hE : 0 < E) :
    ∫ Ep in comptonEdge k E..E, s.dEp k E Ep = π * s.scale k * angInt (E / k.me) := by
  have hm := k.me_pos
  have hx : 0 < E / k.me := div_pos hE hm
  have hle := edge_le k hE
  have hpos := edge_pos k hE
  have e : ∫ Ep in comptonEdge k E..E, s.dEp k E Ep =
      ∫ Ep in comptonEdge k E..E, π * s.scale k * (kern (E / k.me) (E / Ep) * (k.me / Ep ^ 2)) := by
    refine intervalIntegral.integral_congr fun Ep h => ?_
    rw [Set.uIcc_of_le hle] at h
    exact dEp_eq k s hE h.1 h.2
  rw [e, intervalIntegral.integral_const_mul, angInt_eq hx]
  congr 1
  have hd : ∀ Ep ∈ Set.uIcc (comptonEdge k E) E,
      HasDerivAt (fun Ep => -(prim (E / k.me) (E / Ep) / (E / k.me)))
        (kern (E / k.me) (E / Ep) * (k.me / Ep ^ 2)) Ep := by
    intro Ep h
    rw [Set.uIcc_of_le hle] at h
    have hp : 0 < Ep := hpos.trans_le h.1
    have h1 : HasDerivAt (fun Ep => E / Ep) (-E / Ep ^ 2) Ep := by
      have := (hasDerivAt_inv hp.ne').const_mul E
      refine (this.congr_deriv ?_).congr_of_eventuallyEq (Filter.Eventually.of_forall fun s => ?_)
      · field_simp
      · simp [div_eq_mul_inv]
    have h2 := (((prim_deriv hx.ne' (div_pos hE hp)).comp Ep h1).div_const (E / k.me)).neg
    refine h2.congr_deriv ?_
    field_simp
  rw [intervalIntegral.integral_eq_sub_of_hasDerivAt hd]
  · have h1 : E / comptonEdge k E = 1 + 2 * (E / k.me) := by rw [edge_eq]; field_simp
    rw [h1, div_self hE.ne']; ring
  · apply ContinuousOn.intervalIntegrable
    rw [Set.uIcc_of_le hle]
    unfold kern
    have : ∀ Ep ∈ Set.Icc (comptonEdge k E) E, Ep ≠ 0 := fun Ep h => (hpos.trans_le h.1).ne'
    have h2 : ∀ Ep ∈ Set.Icc (comptonEdge k E) E, Ep ^ 2 ≠ 0 := fun Ep h => pow_ne_zero 2 (this Ep h)
    have c1 : ContinuousOn (fun Ep => E / Ep) (Set.Icc (comptonEdge k E) E) := continuousOn_const.div continuousOn_id this
    have c2 : ContinuousOn (fun Ep => 1 / (E / Ep)) (Set.Icc (comptonEdge k E) E) :=
      continuousOn_const.div c1 (fun Ep h => div_ne_zero hE.ne' (this Ep h))
    have c3 : ContinuousOn (fun Ep : ℝ => k.me / Ep ^ 2) (Set.Icc (comptonEdge k E) E) :=
      continuousOn_const.div (by fun_prop) h2
    fun_prop

end Ries.KN
