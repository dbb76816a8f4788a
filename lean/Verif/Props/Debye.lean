import Verif.Lemmas.Debye
import Verif.Spec.Elements

/-! # Properties C36 - C39: effective temperature in the Debye model -/

open MeasureTheory Set Filter Topology

namespace Ries

/-- C36: the effective temperature exceeds both the temperature and 3/8 of the Debye temperature, and stays below their sum. -/
theorem C36_bounds {T TD : ℝ} (hT : 0 < T) (hD : 0 < TD) :
    ∃ Te, debyeTemperature T TD = .ok Te ∧ max T (3 / 8 * TD) < Te ∧ Te < T + 3 / 8 * TD := by
  have hc : 0 < TD / T := div_pos hD hT
  refine ⟨_, debye_eq hT hD, max_lt ?_ ?_, ?_⟩
  · have : ∫ s in (0 : ℝ)..1, s ^ 2 * (T / TD) < ∫ s in (0 : ℝ)..1, unitIntegrand (TD / T) s := by
      refine unit_lt (by fun_prop) (unitIntegrand_continuousOn hc) fun s hs _ => ?_
      have h := inv_lt_phi (mul_pos hs hc)
      calc s ^ 2 * (T / TD) = s ^ 3 * (1 / (s * (TD / T))) := by field_simp
        _ < _ := mul_lt_mul_of_pos_left h (by positivity)
    rw [intervalIntegral.integral_mul_const, integral_pow] at this
    norm_num at this
    calc T = 3 * TD * (1 / 3 * (T / TD)) := by field_simp
      _ < _ := mul_lt_mul_of_pos_left (by linarith) (by positivity)
  · have : ∫ s in (0 : ℝ)..1, s ^ 3 * 0.5 < ∫ s in (0 : ℝ)..1, unitIntegrand (TD / T) s := by
      refine unit_lt (by fun_prop) (unitIntegrand_continuousOn hc) fun s hs _ => ?_
      exact mul_lt_mul_of_pos_left (half_lt_phi (mul_pos hs hc)) (by positivity)
    rw [intervalIntegral.integral_mul_const, integral_pow] at this
    norm_num at this
    nlinarith
  · have : ∫ s in (0 : ℝ)..1, unitIntegrand (TD / T) s < ∫ s in (0 : ℝ)..1, (s ^ 2 * (T / TD) + s ^ 3 * 0.5) := by
      refine unit_lt (unitIntegrand_continuousOn hc) (by fun_prop) fun s hs _ => ?_
      have h := phi_lt (mul_pos hs hc)
      calc unitIntegrand (TD / T) s < s ^ 3 * (1 / (s * (TD / T)) + 0.5) := mul_lt_mul_of_pos_left h (by positivity)
        _ = _ := by field_simp
    rw [intervalIntegral.integral_add (by apply Continuous.intervalIntegrable; fun_prop)
      (by apply Continuous.intervalIntegrable; fun_prop), intervalIntegral.integral_mul_const,
      intervalIntegral.integral_mul_const, integral_pow, integral_pow] at this
    norm_num at this
    calc _ < 3 * TD * (1 / 3 * (T / TD) + 1 / 8) := mul_lt_mul_of_pos_left (by linarith) (by positivity)
      _ = _ := by field_simp

example : (0 : ℝ) < 293 ∧ (0 : ℝ) < 1362 := by norm_num

/-- C37: strictly increasing in the temperature and in the Debye temperature. -/
theorem C37_monotone {T T' TD TD' : ℝ} (hT : 0 < T) (hD : 0 < TD) (hTT : T ≤ T') (hDD : TD ≤ TD') (hne : T < T' ∨ TD < TD') :
    ∃ Te Te', debyeTemperature T TD = .ok Te ∧ debyeTemperature T' TD' = .ok Te' ∧ Te < Te' := by
  have hT' := hT.trans_le hTT
  have hD' := hD.trans_le hDD
  have step1 : ∀ {T T' TD : ℝ}, 0 < T → 0 < TD → T < T' →
      3 * TD * ∫ s in (0 : ℝ)..1, unitIntegrand (TD / T) s < 3 * TD * ∫ s in (0 : ℝ)..1, unitIntegrand (TD / T') s := by
    intro T T' TD hT hD h
    have hT' := hT.trans h
    refine mul_lt_mul_of_pos_left ?_ (by positivity)
    refine unit_lt (unitIntegrand_continuousOn (div_pos hD hT)) (unitIntegrand_continuousOn (div_pos hD hT')) fun s hs _ => ?_
    refine mul_lt_mul_of_pos_left (phi_anti (mul_pos hs (div_pos hD hT')) ?_) (by positivity)
    exact mul_lt_mul_of_pos_left (div_lt_div_of_pos_left hD hT h) hs
  have step2 : ∀ {T TD TD' : ℝ}, 0 < T → 0 < TD → TD < TD' →
      3 * TD * ∫ s in (0 : ℝ)..1, unitIntegrand (TD / T) s < 3 * TD' * ∫ s in (0 : ℝ)..1, unitIntegrand (TD' / T) s := by
    intro T TD TD' hT hD h
    have hD' := hD.trans h
    rw [mul_assoc, mul_assoc]
    refine mul_lt_mul_of_pos_left ?_ (show (0 : ℝ) < 3 by norm_num)
    rw [← intervalIntegral.integral_const_mul, ← intervalIntegral.integral_const_mul]
    refine unit_lt (continuousOn_const.mul (unitIntegrand_continuousOn (div_pos hD hT)))
      (continuousOn_const.mul (unitIntegrand_continuousOn (div_pos hD' hT))) fun s hs _ => ?_
    have h1 := mul_phi_mono (mul_pos hs (div_pos hD hT)) (show s * (TD / T) < s * (TD' / T) from
      mul_lt_mul_of_pos_left (div_lt_div_of_pos_right h hT) hs)
    have e : ∀ D, D * unitIntegrand (D / T) s = s ^ 2 * T * (s * (D / T) * phi (s * (D / T))) := by
      intro D; unfold unitIntegrand; field_simp
    rw [e, e]
    exact mul_lt_mul_of_pos_left h1 (by positivity)
  refine ⟨_, _, debye_eq hT hD, debye_eq hT' hD', ?_⟩
  rcases hTT.eq_or_lt with rfl | h1
  · exact step2 hT hD (hne.resolve_left (lt_irrefl _))
  · rcases hDD.eq_or_lt with rfl | h2
    · exact step1 hT hD h1
    · exact (step1 hT hD h1).trans (step2 hT' hD h2)

/-- C37: homogeneous of degree 1 (independent of the unit of temperature). -/
theorem C37_homogeneous {T TD l : ℝ} (hl : 0 < l) :
    debyeTemperature (l * T) (l * TD) = (debyeTemperature T TD).map (l * ·) := by
  unfold debyeTemperature
  by_cases h1 : TD = 0
  · simp [h1, Except.map]
  by_cases h2 : T = 0
  · simp [h1, h2, Except.map]
  simp only [mul_eq_zero, h1, h2, hl.ne', or_self, if_false, Except.map, Except.ok.injEq,
    mul_div_mul_left _ _ hl.ne']
  ring

example : (0 : ℝ) < 293 ∧ (0 : ℝ) < 1362 ∧ (293 : ℝ) ≤ 300 ∧ (1362 : ℝ) ≤ 1362 ∧ ((293 : ℝ) < 300 ∨ (1362 : ℝ) < 1362) := by norm_num

/-- explicit distance from the classical limit -/
theorem C38_classical_bound {T TD : ℝ} (hT : 0 < T) (hD : 0 < TD) :
    ∃ Te, debyeTemperature T TD = .ok Te ∧ T < Te ∧ Te < T + TD ^ 2 / (20 * T) := by
  have hc : 0 < TD / T := div_pos hD hT
  obtain ⟨Te, h1, h2, -⟩ := C36_bounds hT hD
  refine ⟨Te, h1, (le_max_left _ _).trans_lt h2, ?_⟩
  rw [debye_eq hT hD] at h1
  cases h1
  have : ∫ s in (0 : ℝ)..1, unitIntegrand (TD / T) s < ∫ s in (0 : ℝ)..1, (s ^ 2 * (T / TD) + s ^ 4 * (TD / T / 12)) := by
    refine unit_lt (unitIntegrand_continuousOn hc) (by fun_prop) fun s hs _ => ?_
    have h := phi_lt_pade (mul_pos hs hc)
    calc unitIntegrand (TD / T) s < s ^ 3 * (1 / (s * (TD / T)) + s * (TD / T) / 12) := mul_lt_mul_of_pos_left h (by positivity)
      _ = _ := by field_simp
  rw [intervalIntegral.integral_add (by apply Continuous.intervalIntegrable; fun_prop)
    (by apply Continuous.intervalIntegrable; fun_prop), intervalIntegral.integral_mul_const,
    intervalIntegral.integral_mul_const, integral_pow, integral_pow] at this
  norm_num at this
  calc _ < 3 * TD * (1 / 3 * (T / TD) + 1 / 5 * (TD / T / 12)) := mul_lt_mul_of_pos_left (by linarith) (by positivity)
    _ = _ := by field_simp; ring

/-- C38: zero-point limit, classical limit, and the error at T = 0. -/
theorem C38_limits {TD : ℝ} (hD : 0 < TD) (f : ℝ → ℝ) (hf : ∀ T, 0 < T → debyeTemperature T TD = .ok (f T)) :
    Tendsto f (𝓝[>] 0) (𝓝 (3 / 8 * TD)) ∧ Tendsto (fun T => f T - T) atTop (𝓝 0) ∧
      Tendsto (fun T => f T / T) atTop (𝓝 1) ∧ debyeTemperature 0 TD = .error .zeroDivision := by
  have b1 : ∀ T, 0 < T → T < f T ∧ 3 / 8 * TD < f T ∧ f T < T + 3 / 8 * TD := by
    intro T hT
    obtain ⟨Te, h1, h2, h3⟩ := C36_bounds hT hD
    rw [hf T hT] at h1; cases h1
    exact ⟨(le_max_left _ _).trans_lt h2, (le_max_right _ _).trans_lt h2, h3⟩
  have b2 : ∀ T, 0 < T → f T < T + TD ^ 2 / (20 * T) := by
    intro T hT
    obtain ⟨Te, h1, -, h3⟩ := C38_classical_bound hT hD
    rw [hf T hT] at h1; cases h1
    exact h3
  have hinv : Tendsto (fun T : ℝ => TD ^ 2 / (20 * T)) atTop (𝓝 0) :=
    Tendsto.div_atTop tendsto_const_nhds (tendsto_id.const_mul_atTop (by norm_num))
  have hsub : Tendsto (fun T => f T - T) atTop (𝓝 0) := by
    refine squeeze_zero' ?_ ?_ hinv
    · filter_upwards [eventually_gt_atTop 0] with T hT
      linarith [(b1 T hT).1]
    · filter_upwards [eventually_gt_atTop 0] with T hT
      linarith [b2 T hT]
  refine ⟨?_, hsub, ?_, ?_⟩
  · refine tendsto_of_tendsto_of_tendsto_of_le_of_le' tendsto_const_nhds (h := fun T => T + 3 / 8 * TD) ?_ ?_ ?_
    · have : Tendsto (fun T : ℝ => T + 3 / 8 * TD) (𝓝 0) (𝓝 (0 + 3 / 8 * TD)) := by
        apply Continuous.tendsto; fun_prop
      rw [zero_add] at this
      exact this.mono_left nhdsWithin_le_nhds
    · filter_upwards [self_mem_nhdsWithin] with T hT
      exact (b1 T hT).2.1.le
    · filter_upwards [self_mem_nhdsWithin] with T hT
      exact (b1 T hT).2.2.le
  · have : Tendsto (fun T => 1 + (f T - T) / T) atTop (𝓝 (1 + 0)) :=
      tendsto_const_nhds.add (hsub.div_atTop tendsto_id)
    rw [add_zero] at this
    refine this.congr' ?_
    filter_upwards [eventually_gt_atTop 0] with T hT
    field_simp
    ring
  · simp [debyeTemperature, hD.ne']

example : ∃ f : ℝ → ℝ, ∀ T, 0 < T → debyeTemperature T 1362 = .ok (f T) :=
  ⟨_, fun _ hT => debye_eq hT (by norm_num)⟩

/-- C39 is false of the code: the table has keys that are not element symbols, and manganese and vanadium
(the elements meant) are not found. -/
theorem C39_refuted : (∃ kv ∈ roomTemperatureTD, kv.1 ∉ elementSymbols) ∧ "Mn" ∈ elementSymbols ∧ "V" ∈ elementSymbols ∧
    lookupTD "Mn" = .error .keyError ∧ lookupTD "V" = .error .keyError := by
  refine ⟨⟨("Ma", some 363), ?_, ?_⟩, ?_, ?_, ?_, ?_⟩ <;> decide +kernel

/-- C39, the part that holds: "Ma" and "Va" are the only keys that are not symbols, no key occurs twice, and all
given temperatures are positive. Missing: the two misspelt keys. -/
theorem C39_partial : (∀ kv ∈ roomTemperatureTD, kv.1 ∈ elementSymbols ∨ kv.1 = "Ma" ∨ kv.1 = "Va") ∧
    (roomTemperatureTD.map Prod.fst).Nodup ∧ ∀ kv ∈ roomTemperatureTD, ∀ v, kv.2 = some v → 0 < v := by
  refine ⟨?_, ?_, ?_⟩
  · decide +kernel
  · decide +kernel
  · have : ∀ kv ∈ roomTemperatureTD, kv.2 ≠ some 0 := by decide +kernel
    intro kv hkv v hv
    rcases Nat.eq_zero_or_pos v with rfl | h
    · exact absurd hv (this kv hkv)
    · exact h

end Ries
