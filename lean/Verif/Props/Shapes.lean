import Verif.Lemmas.Shapes
import Verif.Spec.Examples

/-! # Properties C25 - C30: shapes, recoil, Doppler width -/

namespace Ries

/-! ## C25 -/

/-- C25: closed form of the Breit-Wigner cross section. -/
theorem C25_closed_form {k : PhysConst} {init inter : Level} {r : Reso} {w g0 : ℝ} {pw : List (String × ℝ)}
    (hr : mkBreitWigner k init inter none = .ok r) (hpw : inter.widths = some pw) (hn : (pw.map Prod.fst).Nodup)
    (hg : (init.Jpi, g0) ∈ pw) (hw : (pw.map Prod.snd).sum = w) (hpos : 0 < w) (E : ℝ) :
    r.call E = .ok (.fin (Real.pi * (k.hbarc / (inter.exc - init.exc)) ^ 2 *
      (((inter.twoJ : ℝ) + 1) / (2 * ((init.twoJ : ℝ) + 1))) *
      (g0 * w / ((E - (inter.exc - init.exc)) ^ 2 + (w / 2) ^ 2)))) := by
  obtain ⟨r0, w', h0, hw', rfl⟩ := mkBreitWigner_inv hr
  rw [width_eq hpw hn, hw] at hw'
  simp only [Except.ok.injEq] at hw'
  subst hw'
  obtain ⟨her, her0, hc, hJ, hst, hbr, ⟨pw', g0', hpw', hg0', hics⟩, -, -⟩ := mkResonance_inv h0
  rw [hpw] at hpw'; cases hpw'
  rw [lookup_of_mem hn hg] at hg0'; cases hg0'
  simp only [branchingRatio, Except.ok.injEq] at hbr
  have hs : (0 : ℝ) < 0.5 * w := by linarith
  simp only [Reso.call, cauchyDist, scipyDist, locScale, bind, Except.bind, hs, if_true, Fl.smul]
  congr 2
  rw [hics, hc, hst, ← hbr, her]
  unfold noRecoil at her ⊢
  rw [her] at her0
  unfold cauchyPdf
  generalize inter.exc - init.exc = e at *
  have hpi := Real.pi_pos.ne'
  have hden : (E - e) ^ 2 + (w / 2) ^ 2 ≠ 0 := by positivity
  have hden2 : 1 + ((E - e) / (0.5 * w)) ^ 2 ≠ 0 := by positivity
  have e1 : Real.pi * (0.5 * w) * (1 + ((E - e) / (0.5 * w)) ^ 2) = Real.pi * 2 / w * ((E - e) ^ 2 + (w / 2) ^ 2) := by
    field_simp
    ring
  rw [e1]
  field_simp

example : ∃ r, mkBreitWigner exConst exGround exExcited none = .ok r ∧
    exExcited.widths = some [("3/2^-_1", 1), ("5/2^-_1", 3)] ∧
    (exGround.Jpi, (1:ℝ)) ∈ [("3/2^-_1", (1:ℝ)), ("5/2^-_1", 3)] ∧
    (([("3/2^-_1", 1), ("5/2^-_1", 3)] : List (String × ℝ)).map Prod.snd).sum = 4 := by
  obtain ⟨r, h, -⟩ := exBreitWigner
  exact ⟨r, h, rfl, by simp [exGround, groundState], by norm_num⟩

/-! ## C26 -/

/-- the three shapes are peaked at the resonance energy -/
theorem peaked_of {r : Reso} (h : IsBreitWigner r ∨ IsGauss r ∨ IsPseudoVoigt r) :
    ∃ p, Peaked r.er p ∧ (∀ x, 0 < p x) ∧ r.HasSigma fun E => r.ics * p E := by
  rcases h with h | h | h
  · obtain ⟨s, hs, hd, hp⟩ := h.inv
    exact ⟨_, cauchy_peaked r.er hs, cauchyPdf_pos hs _, (analytic_cauchy hd hp hs).sigma⟩
  · obtain ⟨s, hs, hd, hp⟩ := h.inv
    exact ⟨_, norm_peaked r.er hs, normPdf_pos hs _, (analytic_norm hd hp hs).sigma⟩
  · obtain ⟨w, d, hok, -, hd, hp⟩ := h.inv
    exact ⟨_, hok.peaked, hok.good.pos, pv_sigma hok hd hp⟩

/-- C26: the cross section is symmetric about the resonance energy and, for positive strength, positive and strictly
decreasing with the distance from it (so the maximum is there and nowhere else). -/
theorem C26_symmetric_peak {r : Reso} (h : IsBreitWigner r ∨ IsGauss r ∨ IsPseudoVoigt r) (hI : 0 < r.ics) :
    ∃ σ, r.HasSigma σ ∧ (∀ d, σ (r.er + d) = σ (r.er - d)) ∧ (∀ d d', |d| < |d'| → σ (r.er + d') < σ (r.er + d)) ∧
      ∀ E, 0 < σ E := by
  obtain ⟨p, hp, hpos, hσ⟩ := peaked_of h
  have hp' := hp.const_mul hI
  exact ⟨_, hσ, hp'.symm, fun d d' hd => hp'.lt_of_abs hd, fun E => mul_pos hI (hpos E)⟩

/-- C26: Breit-Wigner is at half maximum exactly at E_r ± Γ/2. -/
theorem C26_half_maximum {k : PhysConst} {init inter : Level} {final : Option Level} {r : Reso} {w : ℝ}
    (hr : mkBreitWigner k init inter final = .ok r) (hw : inter.width = .ok w) (hpos : 0 < w) (hI : r.ics ≠ 0)
    (σ : ℝ → ℝ) (hσ : r.HasSigma σ) (E : ℝ) :
    σ E = σ r.er / 2 ↔ E = r.er + w / 2 ∨ E = r.er - w / 2 := by
  obtain ⟨r0, w', h0, hw', rfl⟩ := mkBreitWigner_inv hr
  rw [hw] at hw'; cases hw'
  have hs : (0 : ℝ) < 0.5 * w := by linarith
  have hA : Analytic { r0 with dist := cauchyDist, params := [r0.er, 0.5 * w] } _ _ _ :=
    analytic_cauchy (l := r0.er) (s := 0.5 * w) rfl rfl hs
  rw [sigma_unique hσ hA.sigma]
  simp only at hI ⊢
  unfold cauchyPdf
  have hpi := Real.pi_pos
  have hden : 1 + ((E - r0.er) / (0.5 * w)) ^ 2 ≠ 0 := by positivity
  have e0 : ((r0.er - r0.er) / (0.5 * w)) ^ 2 = 0 := by simp
  rw [e0]
  have key : r0.ics * (1 / (Real.pi * (0.5 * w) * (1 + ((E - r0.er) / (0.5 * w)) ^ 2))) =
      r0.ics * (1 / (Real.pi * (0.5 * w) * (1 + 0))) / 2 ↔ ((E - r0.er) / (0.5 * w)) ^ 2 = 1 := by
    generalize ((E - r0.er) / (0.5 * w)) ^ 2 = t at *
    constructor
    · intro h
      field_simp at h
      linarith
    · rintro rfl
      field_simp
      norm_num
  rw [key, sq_eq_one_iff]
  rw [div_eq_iff hs.ne', div_eq_iff hs.ne']
  constructor
  · rintro (h | h)
    · left; linarith
    · right; linarith
  · rintro (h | h)
    · left; linarith
    · right; linarith

/-- C26: in relative-energy mode the cross section is centred at zero: the value at d is that of the absolute mode at E_r + d, it is
symmetric in d and decreases strictly with |d|. -/
theorem C26_relative_mode {r : Reso} (h : IsBreitWigner r ∨ IsGauss r ∨ IsPseudoVoigt r) (hI : 0 < r.ics) :
    ∃ τ : ℝ → ℝ, (∀ d, r.call d false = .ok (.fin (τ d))) ∧ (∀ d, r.call (r.er + d) true = .ok (.fin (τ d))) ∧
      (∀ d, τ (-d) = τ d) ∧ ∀ d d', |d| < |d'| → τ d' < τ d := by
  obtain ⟨σ, hσ, hs, hm, -⟩ := C26_symmetric_peak h hI
  refine ⟨fun d => σ (r.er + d), fun d => ?_, fun d => hσ (r.er + d), fun d => ?_, hm⟩
  · rw [show r.call d false = r.call (d + r.er) true from rfl, hσ, add_comm]
  · show σ (r.er + -d) = _
    rw [← sub_eq_add_neg, ← hs]

/-! ## C27 -/

/-- C27: the recoil-corrected energy is the unique photon energy that conserves energy and momentum in the absorption
by a free nucleus of mass M = amu·u at rest; it exceeds the level difference by exactly ΔE²/(2M). -/
theorem C27_recoil (k : PhysConst) (amu dE : ℝ) (ha : 0 < amu) :
    (∀ E, E + amu * k.u = Real.sqrt ((amu * k.u + dE) ^ 2 + E ^ 2) ↔ E = freeNucleusRecoil k amu dE) ∧
    freeNucleusRecoil k amu dE - dE = dE ^ 2 / (2 * (amu * k.u)) ∧ noRecoil dE = dE := by
  have hM : 0 < amu * k.u := mul_pos ha k.u_pos
  have e : freeNucleusRecoil k amu dE = dE + dE ^ 2 / (2 * (amu * k.u)) := by
    unfold freeNucleusRecoil
    rw [mul_assoc 2 amu k.u]
    ring
  rw [e]
  generalize amu * k.u = M at *
  refine ⟨fun E => ⟨fun h => ?_, fun h => ?_⟩, by ring, rfl⟩
  · have h2 : (E + M) ^ 2 = (M + dE) ^ 2 + E ^ 2 := by
      rw [h, Real.sq_sqrt (by positivity)]
    field_simp
    linarith
  · symm
    have hpos : 0 ≤ E + M := by
      have : E + M = ((M + dE) ^ 2 + M ^ 2) / (2 * M) := by rw [h]; field_simp; ring
      rw [this]; positivity
    rw [Real.sqrt_eq_iff_mul_self_eq (by positivity) hpos, h]
    field_simp
    ring

example : (0 : ℝ) < 11.009 := by norm_num

/-! ## C28 -/

/-- C28 is false of the code: only the base class takes a recoil correction. For a nonzero level difference, every other
class has a resonance energy that differs from the one corrected for the recoil of a free nucleus. -/
theorem C28_refuted (s : Shape) (hs : ∀ R, s ≠ .box R) {k : PhysConst} {init inter : Level} {final : Option Level} {r : Reso}
    (h : s.build k init inter final = .ok r) (amu : ℝ) (ha : 0 < amu) :
    r.er ≠ freeNucleusRecoil k amu (inter.exc - init.exc) := by
  obtain ⟨r0, d, ps, hr0, -, rfl⟩ := build_inv h
  obtain ⟨her, her0, -⟩ := mkResonance_inv hr0
  have hrec : s.recoil = noRecoil := by
    cases s with
    | box R => exact absurd rfl (hs R)
    | _ => rfl
  rw [hrec] at her
  unfold noRecoil at her
  simp only
  intro hcon
  have h2 := (C27_recoil k amu (inter.exc - init.exc) ha).2.1
  rw [← hcon, her, sub_self] at h2
  rw [her] at her0
  have hM : 0 < amu * k.u := mul_pos ha k.u_pos
  have : 0 < (inter.exc - init.exc) ^ 2 / (2 * (amu * k.u)) := by positivity
  linarith

/-- C28, the part that holds: the base class uses the given correction, and all other classes use the plain level
difference. Missing: the other classes accept no correction. -/
theorem C28_partial (s : Shape) {k : PhysConst} {init inter : Level} {final : Option Level} {r : Reso}
    (h : s.build k init inter final = .ok r) :
    r.er = (match s with
      | .box R => R (inter.exc - init.exc)
      | _ => inter.exc - init.exc) := by
  obtain ⟨r0, d, ps, hr0, -, rfl⟩ := build_inv h
  have her := (mkResonance_inv hr0).1
  simp only [her]
  cases s <;> rfl

example : ∃ r, Shape.breitWigner.build exConst exGround exExcited none = .ok r := by
  obtain ⟨r, h, -⟩ := exBreitWigner
  exact ⟨r, h⟩

/-! ## C29, C30 -/

/-- C29: the effective temperature of the Doppler width is the temperature. -/
theorem C29_temperature_roundtrip (k : PhysConst) (amu T E : ℝ) (ha : 0 < amu) (hT : 0 ≤ T) (hE : E ≠ 0) :
    ∃ d, getDopplerWidth k amu T E = .ok d ∧ getEffectiveTemperature k d amu E = .ok T := by
  refine ⟨_, getDopplerWidth_ok k ha.ne' T E, ?_⟩
  have hu := k.u_pos
  have hk := k.kB_pos
  have h0 : ¬ E * E * 2 * k.kB * 1e-6 = 0 := by
    have : E * E ≠ 0 := mul_ne_zero hE hE
    positivity
  rw [getEffectiveTemperature, if_neg h0]
  congr 1
  unfold effectiveTemperature dopplerWidth
  have hrad : 0 ≤ 2 * k.kB * 1e-6 * T / (amu * k.u) := by positivity
  have e : E * Real.sqrt (2 * k.kB * 1e-6 * T / (amu * k.u)) * (E * Real.sqrt (2 * k.kB * 1e-6 * T / (amu * k.u)))
      = E * E * (2 * k.kB * 1e-6 * T / (amu * k.u)) := by
    calc _ = E * E * (Real.sqrt (2 * k.kB * 1e-6 * T / (amu * k.u)) * Real.sqrt (2 * k.kB * 1e-6 * T / (amu * k.u))) := by ring
      _ = _ := by rw [Real.mul_self_sqrt hrad]
  rw [e]
  field_simp

/-- C29, the other direction, for positive reference energies. -/
theorem C29_width_roundtrip (k : PhysConst) (amu d E : ℝ) (ha : 0 < amu) (hd : 0 ≤ d) (hE : 0 < E) :
    ∃ T, getEffectiveTemperature k d amu E = .ok T ∧ 0 ≤ T ∧ getDopplerWidth k amu T E = .ok d := by
  have hu := k.u_pos
  have hk := k.kB_pos
  have h0 : ¬ E * E * 2 * k.kB * 1e-6 = 0 := by positivity
  refine ⟨_, by rw [getEffectiveTemperature, if_neg h0], ?_, ?_⟩
  · unfold effectiveTemperature; positivity
  · rw [getDopplerWidth_ok k ha.ne']
    congr 1
    unfold effectiveTemperature dopplerWidth
    have e : 2 * k.kB * 1e-6 * (d * d * amu * k.u / (E * E * 2 * k.kB * 1e-6)) / (amu * k.u) = (d / E) ^ 2 := by
      field_simp
    rw [e, Real.sqrt_sq (by positivity)]
    field_simp

/-- C30: the Doppler width is proportional to the energy and to the square root of T/amu. -/
theorem C30_scaling (k : PhysConst) (amu T E c t m : ℝ) (ht : 0 ≤ t) (hm : 0 < m) :
    dopplerWidth k amu T (c * E) = c * dopplerWidth k amu T E ∧
    dopplerWidth k amu (t * T) E = Real.sqrt t * dopplerWidth k amu T E ∧
    dopplerWidth k (m * amu) T E = dopplerWidth k amu T E / Real.sqrt m := by
  unfold dopplerWidth
  refine ⟨by ring, ?_, ?_⟩
  · have : 2 * k.kB * 1e-6 * (t * T) / (amu * k.u) = t * (2 * k.kB * 1e-6 * T / (amu * k.u)) := by ring
    rw [this, Real.sqrt_mul ht]
    ring
  · have : 2 * k.kB * 1e-6 * T / (m * amu * k.u) = m⁻¹ * (2 * k.kB * 1e-6 * T / (amu * k.u)) := by
      rw [mul_assoc m, div_mul_eq_div_div_swap]
      ring
    rw [this, Real.sqrt_mul (by positivity), Real.sqrt_inv]
    ring

/-- C30: strictly increasing in T, strictly decreasing in the mass. -/
theorem C30_monotone (k : PhysConst) (amu amu' T T' E : ℝ) (hE : 0 < E) (ha : 0 < amu) (ha' : amu < amu') (hT : 0 ≤ T) (hT' : T < T') :
    dopplerWidth k amu T E < dopplerWidth k amu T' E ∧ dopplerWidth k amu' T' E < dopplerWidth k amu T' E := by
  have hu := k.u_pos
  have hk := k.kB_pos
  unfold dopplerWidth
  constructor
  · refine mul_lt_mul_of_pos_left (Real.sqrt_lt_sqrt (by positivity) ?_) hE
    gcongr
  · have : 0 < amu' := ha.trans ha'
    have : 0 < T' := hT.trans_lt hT'
    refine mul_lt_mul_of_pos_left (Real.sqrt_lt_sqrt (by positivity) ?_) hE
    gcongr

/-- The hypotheses of C29 and C30 are met. -/
example : (0 : ℝ) < 11.009 ∧ (11.009 : ℝ) < 12 ∧ (0 : ℝ) ≤ 293 ∧ (293 : ℝ) < 400 ∧ (0 : ℝ) < 2.1 := by norm_num

end Ries
