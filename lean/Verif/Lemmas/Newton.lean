import Verif.Lemmas.PseudoVoigt

/-! # Newton's method as used by the pseudo-Voigt PPF -/

namespace Ries

theorem newtonTol_pos : 0 < newtonTol := by unfold newtonTol; norm_num

namespace GoodCDF
variable {F p : ℝ → ℝ}

/-- error after a Newton step from `y` to `x` -/
theorem newton_error (h : GoodCDF F p) (q y : ℝ) : ∃ ξ, F (y - (F y - q) / p y) - q = (p ξ - p y) * (-((F y - q) / p y)) ∧
    (0 ≤ F y - q → ξ ≤ y) ∧ (F y - q ≤ 0 → y ≤ ξ) := by
  have hp := h.pos y
  set dp := (F y - q) / p y with hdp
  have hfy : F y - q = p y * dp := by rw [hdp]; field_simp
  rcases lt_trichotomy dp 0 with hneg | hz | hpos
  · obtain ⟨ξ, hξ, hslope⟩ := exists_hasDerivAt_eq_slope F p (show y < y - dp by linarith) h.continuous.continuousOn
      (fun x _ => h.deriv x)
    refine ⟨ξ, ?_, ?_, ?_⟩
    · have : F (y - dp) - F y = p ξ * (-dp) := by
        have e : y - dp - y = -dp := by ring
        rw [hslope, e, div_mul_cancel₀ _ (by linarith : -dp ≠ 0)]
      linear_combination this + hfy
    · intro h0; nlinarith
    · intro _; exact hξ.1.le
  · refine ⟨y, ?_, fun _ => le_rfl, fun _ => le_rfl⟩
    rw [hz] at hfy ⊢
    simp; linarith
  · obtain ⟨ξ, hξ, hslope⟩ := exists_hasDerivAt_eq_slope F p (show y - dp < y by linarith) h.continuous.continuousOn
      (fun x _ => h.deriv x)
    refine ⟨ξ, ?_, ?_, ?_⟩
    · have : F y - F (y - dp) = p ξ * dp := by
        have e : y - (y - dp) = dp := by ring
        rw [hslope, e, div_mul_cancel₀ _ hpos.ne']
      linear_combination hfy - this
    · intro _; exact hξ.2.le
    · intro h0; nlinarith

/-- accuracy of the point after a step of length at most `t` -/
theorem newton_accuracy (h : GoodCDF F p) {M : ℝ} (hM : ∀ x, p x ≤ M) (q y : ℝ) {t : ℝ} (ht : |(F y - q) / p y| ≤ t) :
    |F (y - (F y - q) / p y) - q| ≤ t * M := by
  obtain ⟨ξ, e, -⟩ := h.newton_error q y
  rw [e, abs_mul, abs_neg, mul_comm]
  have h1 : |p ξ - p y| ≤ M := by
    rw [abs_le]
    have := h.pos ξ; have := h.pos y; have := hM ξ; have := hM y
    constructor <;> linarith
  exact mul_le_mul ht h1 (abs_nonneg _) ((abs_nonneg _).trans ht)

end GoodCDF

/-- position of an iterate relative to the centre `c` and the target -/
def OnSide (F : ℝ → ℝ) (c q x : ℝ) : Prop := (1 / 2 ≤ q → c ≤ x ∧ F x ≤ q) ∧ (q ≤ 1 / 2 → x ≤ c ∧ q ≤ F x)

theorem Peaked.anti_right {c : ℝ} {p : ℝ → ℝ} (h : Peaked c p) {x y : ℝ} (hx : c ≤ x) (hxy : x ≤ y) : p y ≤ p x := by
  have := h.le_of_abs (d := x - c) (e := y - c) (by
    rw [abs_of_nonneg (by linarith), abs_of_nonneg (by linarith)]; linarith)
  simpa using this

theorem Peaked.mono_left {c : ℝ} {p : ℝ → ℝ} (h : Peaked c p) {x y : ℝ} (hy : y ≤ c) (hxy : x ≤ y) : p x ≤ p y := by
  have := h.le_of_abs (d := y - c) (e := x - c) (by
    rw [abs_of_nonpos (by linarith), abs_of_nonpos (by linarith)]; linarith)
  simpa using this

/-- A Newton step never crosses the target. -/
theorem onSide_step {F p : ℝ → ℝ} {c : ℝ} (h : GoodCDF F p) (hp : Peaked c p) {q x : ℝ} (hx : OnSide F c q x) :
    OnSide F c q (x - (F x - q) / p x) ∧ (1 / 2 ≤ q → x ≤ x - (F x - q) / p x) ∧ (q ≤ 1 / 2 → x - (F x - q) / p x ≤ x) := by
  have hpos := h.pos x
  obtain ⟨ξ, e, e1, e2⟩ := h.newton_error q x
  have up : 1 / 2 ≤ q → x ≤ x - (F x - q) / p x := fun hq => by
    have := (hx.1 hq).2
    have : (F x - q) / p x ≤ 0 := div_nonpos_of_nonpos_of_nonneg (by linarith) hpos.le
    linarith
  have dn : q ≤ 1 / 2 → x - (F x - q) / p x ≤ x := fun hq => by
    have := (hx.2 hq).2
    have : 0 ≤ (F x - q) / p x := div_nonneg (by linarith) hpos.le
    linarith
  refine ⟨⟨fun hq => ?_, fun hq => ?_⟩, up, dn⟩
  · obtain ⟨hc, hF⟩ := hx.1 hq
    refine ⟨hc.trans (up hq), ?_⟩
    have h1 := hp.anti_right hc (e2 (by linarith))
    have h2 : 0 ≤ -((F x - q) / p x) := by linarith [up hq]
    have : (p ξ - p x) * (-((F x - q) / p x)) ≤ 0 := mul_nonpos_of_nonpos_of_nonneg (by linarith) h2
    linarith
  · obtain ⟨hc, hF⟩ := hx.2 hq
    refine ⟨(dn hq).trans hc, ?_⟩
    have h1 := hp.mono_left hc (e1 (by linarith))
    have h2 : -((F x - q) / p x) ≤ 0 := by linarith [dn hq]
    have : 0 ≤ (p ξ - p x) * (-((F x - q) / p x)) := mul_nonneg_of_nonpos_of_nonpos (by linarith) h2
    linarith

theorem GoodCDF.slope {F p : ℝ → ℝ} (h : GoodCDF F p) {x y : ℝ} (hxy : x < y) : ∃ ξ, x < ξ ∧ ξ < y ∧ F y - F x = p ξ * (y - x) := by
  obtain ⟨ξ, hξ, hslope⟩ := exists_hasDerivAt_eq_slope F p hxy h.continuous.continuousOn (fun x _ => h.deriv x)
  refine ⟨ξ, hξ.1, hξ.2, ?_⟩
  have : y - x ≠ 0 := by linarith
  rw [hslope]; field_simp

/-- Newton steps preserve the order of the quantiles. -/
theorem newton_mono {F p : ℝ → ℝ} {c : ℝ} (h : GoodCDF F p) (hp : Peaked c p) {q q' x x' : ℝ} (hq : q ≤ q')
    (hx : OnSide F c q x) (hx' : OnSide F c q' x') (hxx : x ≤ x') : x - (F x - q) / p x ≤ x' - (F x' - q') / p x' := by
  obtain ⟨s1, u1, d1⟩ := onSide_step h hp hx
  obtain ⟨s2, u2, d2⟩ := onSide_step h hp hx'
  by_cases h1 : 1 / 2 ≤ q
  · -- both on the right
    have h2 : 1 / 2 ≤ q' := h1.trans hq
    by_cases hcase : x - (F x - q) / p x ≤ x'
    · exact hcase.trans (u2 h2)
    · push Not at hcase
      have hF' : F x' ≤ q := (h.strictMono.monotone hcase.le).trans (s1.1 h1).2
      rcases hxx.eq_or_lt with rfl | hlt
      · have : (F x - q') / p x ≤ (F x - q) / p x := div_le_div_of_nonneg_right (by linarith) (h.pos x).le
        linarith
      obtain ⟨ξ, a, b, e⟩ := h.slope hlt
      have hcx := (hx.1 h1).1
      have pξ : p ξ ≤ p x := hp.anti_right hcx a.le
      have px' : p x' ≤ p x := hp.anti_right hcx hlt.le
      have p0 := h.pos x
      have p0' := h.pos x'
      have k1 : (q - F x') / p x ≤ (q' - F x') / p x' := by
        calc (q - F x') / p x ≤ (q - F x') / p x' := div_le_div_of_nonneg_left (by linarith) p0' px'
          _ ≤ _ := div_le_div_of_nonneg_right (by linarith) p0'.le
      have k2 : (F x' - F x) / p x ≤ x' - x := by
        rw [div_le_iff₀ p0, e]
        nlinarith
      have k3 : (q - F x) / p x = (q - F x') / p x + (F x' - F x) / p x := by ring
      have k4 : (F x - q) / p x = -((q - F x) / p x) := by ring
      have k5 : (F x' - q') / p x' = -((q' - F x') / p x') := by ring
      linarith
  · push Not at h1
    by_cases h2 : 1 / 2 ≤ q'
    · exact ((s1.2 h1.le).1).trans (s2.1 h2).1
    · push Not at h2
      by_cases hcase : x ≤ x' - (F x' - q') / p x'
      · exact (d1 h1.le).trans hcase
      · push Not at hcase
        have hF' : q' ≤ F x := (s2.2 h2.le).2.trans (h.strictMono.monotone hcase.le)
        rcases hxx.eq_or_lt with rfl | hlt
        · have : (F x - q') / p x ≤ (F x - q) / p x := div_le_div_of_nonneg_right (by linarith) (h.pos x).le
          linarith
        obtain ⟨ξ, a, b, e⟩ := h.slope hlt
        have hcx := (hx'.2 h2.le).1
        have pξ : p ξ ≤ p x' := hp.mono_left hcx b.le
        have px' : p x ≤ p x' := hp.mono_left hcx hlt.le
        have p0 := h.pos x
        have p0' := h.pos x'
        have k1 : (F x - q') / p x' ≤ (F x - q) / p x := by
          calc (F x - q') / p x' ≤ (F x - q') / p x := div_le_div_of_nonneg_left (by linarith) p0 px'
            _ ≤ _ := div_le_div_of_nonneg_right (by linarith) p0.le
        have k2 : (F x' - F x) / p x' ≤ x' - x := by
          rw [div_le_iff₀ p0', e]
          nlinarith
        have k3 : (F x' - q') / p x' = (F x - q') / p x' + (F x' - F x) / p x' := by ring
        linarith

/-- induction principle for the array loop when the derivative never vanishes -/
theorem newtonLoop_inv {F p : ℝ → ℝ} (hp : ∀ x, 0 < p x) (I : List NEl → Prop)
    (hstep : ∀ st, I st → I (st.map (NEl.step F p)))
    (hstop : ∀ st, I st → (∀ e ∈ st, F e.x - e.q = 0) → I (st.map fun e => { e with failed := false }))
    (fuel : ℕ) (st : List NEl) (h : I st) : I (newtonLoop F p fuel st) := by
  induction fuel generalizing st with
  | zero => exact h
  | succ n ih =>
    unfold newtonLoop
    split_ifs with h1 h2
    · exact hstop st h h1
    · cases st with
      | nil => exact absurd (by simp) h1
      | cons e st => exact absurd (h2 e (by simp)) (hp _).ne'
    · show I (if _ then _ else _)
      split_ifs
      · exact hstep st h
      · exact ih _ (hstep st h)

theorem step_eq {F p : ℝ → ℝ} (hp : ∀ x, 0 < p x) (e : NEl) : NEl.step F p e =
    { q := e.q, x := e.x - (F e.x - e.q) / p e.x, nz := true, failed := decide (newtonTol ≤ |(F e.x - e.q) / p e.x|) } := by
  unfold NEl.step
  rw [if_neg (hp e.x).ne']

/-- invariant of a single component -/
structure Good1 (F p : ℝ → ℝ) (c M : ℝ) (e : NEl) : Prop where
  side : OnSide F c e.q e.x
  acc : e.failed = false → |F e.x - e.q| ≤ newtonTol * M
  nz : e.nz = true

theorem Good1.step {F p : ℝ → ℝ} {c M : ℝ} (h : GoodCDF F p) (hp : Peaked c p) (hM : ∀ x, p x ≤ M) {e : NEl}
    (he : Good1 F p c M e) : Good1 F p c M (NEl.step F p e) := by
  rw [step_eq h.pos]
  refine ⟨(onSide_step h hp he.side).1, ?_, rfl⟩
  intro hf
  simp only [decide_eq_false_iff_not, not_le] at hf
  exact h.newton_accuracy hM e.q e.x hf.le

/-- invariant of the whole list: components, the original quantiles, and order -/
def GoodL (F p : ℝ → ℝ) (c M : ℝ) (qs : List ℝ) (st : List NEl) : Prop :=
  (∀ e ∈ st, Good1 F p c M e) ∧ st.map (·.q) = qs ∧ st.Pairwise fun e e' => e.q ≤ e'.q → e.x ≤ e'.x

theorem newtonLoop_good {F p : ℝ → ℝ} {c : ℝ} (h : GoodCDF F p) (hp : Peaked c p) (fuel : ℕ) (qs : List ℝ) :
    GoodL F p c (p c) qs (newtonLoop F p fuel (qs.map fun q => ⟨q, c, true, true⟩)) := by
  have hc : F c = 1 / 2 := h.half_of_symm c hp.symm
  have hM : ∀ x, p x ≤ p c := hp.le_peak
  refine newtonLoop_inv h.pos (GoodL F p c (p c) qs) ?_ ?_ fuel _ ?_
  · rintro st ⟨h1, h2, h3⟩
    refine ⟨?_, ?_, ?_⟩
    · intro e he
      obtain ⟨e0, he0, rfl⟩ := List.mem_map.1 he
      exact (h1 e0 he0).step h hp hM
    · rw [← h2, List.map_map]
      apply List.map_congr_left
      intro e _
      simp [step_eq h.pos]
    · rw [List.pairwise_map]
      refine h3.imp_of_mem ?_
      intro a b ha hb hab hq
      simp only [step_eq h.pos] at hq ⊢
      exact newton_mono h hp hq (h1 a ha).side (h1 b hb).side (hab hq)
  · rintro st ⟨h1, h2, h3⟩ hz
    refine ⟨?_, ?_, ?_⟩
    · intro e he
      obtain ⟨e0, he0, rfl⟩ := List.mem_map.1 he
      refine ⟨(h1 e0 he0).side, fun _ => ?_, (h1 e0 he0).nz⟩
      simp only [hz e0 he0, abs_zero]
      exact mul_nonneg newtonTol_pos.le (h.pos c).le
    · rw [← h2, List.map_map]; rfl
    · rw [List.pairwise_map]; exact h3
  · refine ⟨?_, ?_, ?_⟩
    · intro e he
      obtain ⟨q, -, rfl⟩ := List.mem_map.1 he
      refine ⟨⟨fun hq => ⟨le_rfl, by rw [hc]; exact hq⟩, fun hq => ⟨le_rfl, by rw [hc]; exact hq⟩⟩, by simp, rfl⟩
    · simp [List.map_map, Function.comp_def]
    · rw [List.pairwise_map]
      exact List.pairwise_of_forall (by simp)

/-- result of the scalar routine -/
theorem newtonScalar_good {F p : ℝ → ℝ} {c : ℝ} (h : GoodCDF F p) (hp : Peaked c p) (q : ℝ) (fuel : ℕ) (x0 x : ℝ)
    (h0 : OnSide F c q x0) (hr : newtonScalar F p q fuel x0 = .ok x) : |F x - q| ≤ newtonTol * p c ∧ OnSide F c q x := by
  induction fuel generalizing x0 with
  | zero => simp [newtonScalar] at hr
  | succ n ih =>
    unfold newtonScalar at hr
    by_cases h1 : F x0 - q = 0
    · rw [if_pos h1] at hr
      simp only [Except.ok.injEq] at hr
      subst hr
      rw [h1, abs_zero]
      exact ⟨mul_nonneg newtonTol_pos.le (h.pos c).le, h0⟩
    · rw [if_neg h1, if_neg (h.pos x0).ne'] at hr
      simp only at hr
      by_cases h2 : |x0 - (F x0 - q) / p x0 - x0| ≤ newtonTol
      · rw [if_pos h2] at hr
        simp only [Except.ok.injEq] at hr
        subst hr
        have h3 : |(F x0 - q) / p x0| ≤ newtonTol := by
          have e : x0 - (F x0 - q) / p x0 - x0 = -((F x0 - q) / p x0) := by ring
          rwa [e, abs_neg] at h2
        exact ⟨h.newton_accuracy hp.le_peak q x0 h3, (onSide_step h hp h0).1⟩
      · rw [if_neg h2] at hr
        exact ih _ (onSide_step h hp h0).1 hr

/-- reflection of a symmetric distribution -/
theorem GoodCDF.reflect {F p : ℝ → ℝ} {c : ℝ} (h : GoodCDF F p) (hp : Peaked c p) (y : ℝ) : F (2 * c - y) = 1 - F y := by
  have hc : F c = 1 / 2 := h.half_of_symm c hp.symm
  have hd : ∀ t, HasDerivAt (fun t => F (2 * c - t) + F t) 0 t := by
    intro t
    have h1 : HasDerivAt (fun t : ℝ => 2 * c - t) (-1) t := by
      simpa using (hasDerivAt_id t).const_sub (2 * c)
    have h2 := ((h.deriv (2 * c - t)).comp t h1).add (h.deriv t)
    refine h2.congr_deriv ?_
    have := hp.symm (c - t)
    have e1 : c + (c - t) = 2 * c - t := by ring
    have e2 : c - (c - t) = t := by ring
    rw [e1, e2] at this
    rw [this]; ring
  have := is_const_of_deriv_eq_zero (fun t => (hd t).differentiableAt) (fun t => (hd t).deriv) y c
  have e : 2 * c - c = c := by ring
  rw [e, hc] at this
  linarith

/-- all components are at mirror images of one point, with the same flags -/
def Mirror (c q : ℝ) (qs : List ℝ) (st : List NEl) : Prop :=
  st.map (·.q) = qs ∧ ∃ y b, ∀ e ∈ st, e.nz = true ∧ e.failed = b ∧ ((e.q = q ∧ e.x = y) ∨ (e.q = 1 - q ∧ e.x = 2 * c - y))

theorem newtonLoop_mirror {F p : ℝ → ℝ} {c : ℝ} (h : GoodCDF F p) (hp : Peaked c p) {q : ℝ} {qs : List ℝ}
    (hq : ∀ q' ∈ qs, q' = q ∨ q' = 1 - q) (fuel : ℕ) :
    Mirror c q qs (newtonLoop F p fuel (qs.map fun q => ⟨q, c, true, true⟩)) := by
  refine newtonLoop_inv h.pos (Mirror c q qs) ?_ ?_ fuel _ ?_
  · rintro st ⟨h1, y, b, h2⟩
    refine ⟨?_, y - (F y - q) / p y, decide (newtonTol ≤ |(F y - q) / p y|), ?_⟩
    · rw [← h1, List.map_map]
      apply List.map_congr_left
      intro e _
      simp [step_eq h.pos]
    · intro e he
      obtain ⟨e0, he0, rfl⟩ := List.mem_map.1 he
      rw [step_eq h.pos]
      obtain ⟨-, -, ⟨hq1, hx⟩ | ⟨hq1, hx⟩⟩ := h2 e0 he0
      · simp [hq1, hx]
      · have hpm : p (2 * c - y) = p y := by
          have := hp.symm (c - y)
          have e1 : c + (c - y) = 2 * c - y := by ring
          have e2 : c - (c - y) = y := by ring
          rwa [e1, e2] at this
        have hdp : (F e0.x - e0.q) / p e0.x = -((F y - q) / p y) := by
          rw [hx, hq1, hpm, h.reflect hp y]; ring
        refine ⟨rfl, ?_, Or.inr ⟨hq1, ?_⟩⟩
        · simp only [hdp, abs_neg]
        · simp only [hdp]; rw [hx]; ring
  · rintro st ⟨h1, y, b, h2⟩ -
    refine ⟨by rw [← h1, List.map_map]; rfl, y, false, ?_⟩
    intro e he
    obtain ⟨e0, he0, rfl⟩ := List.mem_map.1 he
    exact ⟨(h2 e0 he0).1, rfl, (h2 e0 he0).2.2⟩
  · refine ⟨by simp [List.map_map, Function.comp_def], c, true, ?_⟩
    intro e he
    obtain ⟨q', hq', rfl⟩ := List.mem_map.1 he
    refine ⟨rfl, rfl, ?_⟩
    rcases hq q' hq' with h | h
    · left; exact ⟨h, rfl⟩
    · right; exact ⟨h, by ring⟩

end Ries
