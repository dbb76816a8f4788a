import Verif.Props.Coverage

/-! # C165: scaling of all energies -/

open MeasureTheory

namespace Ries

/-- the same level with the excitation energy and all partial widths multiplied by `c` -/
def Level.scaled (c : ℝ) (l : Level) : Level :=
  { l with exc := c * l.exc, widths := l.widths.map (List.map fun kv => (kv.1, c * kv.2)) }

/-- a number, an infinity or nan, multiplied by a positive number -/
noncomputable def Fl.times (c : ℝ) : Fl → Fl
  | .fin x => .fin (c * x)
  | .ninf => .ninf
  | .pinf => .pinf
  | .nan => .nan

theorem lookup_scaled (c : ℝ) (key : String) (l : List (String × ℝ)) :
    lookup key (l.map fun kv => (kv.1, c * kv.2)) = (lookup key l).map (c * ·) := by
  induction l with
  | nil => rfl
  | cons kv l ih =>
    simp only [List.map_cons, lookup]
    split
    · rfl
    · exact ih

theorem pyNumSum_scaled (c : ℝ) (l : List ℝ) : pyNumSum (l.map (c * ·)) = c * pyNumSum l := by
  have : ∀ (l : List ℝ) a, (l.map (c * ·)).foldl (· + ·) (c * a) = c * l.foldl (· + ·) a := by
    intro l
    induction l with
    | nil => intro a; rfl
    | cons x l ih => intro a; rw [List.map_cons, List.foldl_cons, List.foldl_cons, ← mul_add, ih]
  have h := this l 0
  rwa [mul_zero] at h

theorem partialWidths_scaled (c : ℝ) (l : Level) :
    (l.scaled c).partialWidths = l.partialWidths.map (List.map fun kv => (kv.1, c * kv.2)) := by
  cases h : l.widths <;> simp [Level.partialWidths, Level.scaled, h, Except.map]

theorem mapM_lookup_scaled (c : ℝ) (q p : List (String × ℝ)) :
    (p.map fun kv => (kv.1, c * kv.2)).mapM (fun kv => lookup kv.1 (q.map fun kv => (kv.1, c * kv.2))) =
      (p.mapM fun kv => lookup kv.1 q).map (List.map (c * ·)) := by
  induction p with
  | nil => rfl
  | cons kv p ih =>
    rw [List.map_cons, List.mapM_cons, List.mapM_cons, ih, lookup_scaled]
    cases lookup kv.1 q with
    | error e => rfl
    | ok v =>
      cases p.mapM fun kv => lookup kv.1 q with
      | error e => rfl
      | ok vs => rfl

theorem width_scaled (c : ℝ) (l : Level) : (l.scaled c).width = l.width.map (c * ·) := by
  rw [Level.width, Level.width, partialWidths_scaled]
  cases l.partialWidths with
  | error e => rfl
  | ok p =>
    simp only [Except.map, Bind.bind, Except.bind]
    rw [mapM_lookup_scaled]
    cases p.mapM fun kv => lookup kv.1 p with
    | error e => rfl
    | ok vs => simp only [Except.map, pyNumSum_scaled]

theorem fdiv_scaled {c : ℝ} (hc : c ≠ 0) (a b : ℝ) : fdiv (c * a) (c * b) = fdiv a b := by
  simp only [fdiv, mul_eq_zero, hc, false_or, mul_div_mul_left _ _ hc]

theorem branchingRatio_scaled {c : ℝ} (hc : c ≠ 0) (inter : Level) (final : Option Level) :
    branchingRatio (inter.scaled c) (final.map (Level.scaled c)) = branchingRatio inter final := by
  cases final with
  | none => rfl
  | some f =>
    simp only [branchingRatio, Option.map_some, partialWidths_scaled, width_scaled]
    cases inter.partialWidths with
    | error e => rfl
    | ok p =>
      simp only [Except.map, Bind.bind, Except.bind]
      rw [show (f.scaled c).Jpi = f.Jpi from rfl, lookup_scaled]
      cases lookup f.Jpi p with
      | error e => rfl
      | ok g =>
        simp only [Except.map]
        cases inter.width with
        | error e => rfl
        | ok w => exact fdiv_scaled hc g w

/-- `mkResonance` of the scaled levels -/
theorem mkResonance_scaled (k : PhysConst) {c : ℝ} (hc : 0 < c) (init inter : Level) (final : Option Level) :
    (∀ e, mkResonance k init inter final noRecoil = .error e →
      mkResonance k (init.scaled c) (inter.scaled c) (final.map (Level.scaled c)) noRecoil = .error e) ∧
    ∀ r, mkResonance k init inter final noRecoil = .ok r →
      ∃ r', mkResonance k (init.scaled c) (inter.scaled c) (final.map (Level.scaled c)) noRecoil = .ok r' ∧
        r'.er = c * r.er ∧ r'.ics = r.ics / c ∧ r'.stat = r.stat ∧ r'.br = r.br := by
  have e1 : noRecoil ((inter.scaled c).exc - (init.scaled c).exc) = c * noRecoil (inter.exc - init.exc) := by
    simp only [noRecoil, Level.scaled]; ring
  have e2 : statFactor (init.scaled c) (inter.scaled c) = statFactor init inter := rfl
  have e3 : ∀ er stat br : ℝ, integratedCS ((Real.pi * k.hbarc) ^ 2) (c * er) stat br (init.scaled c) (inter.scaled c) =
      (integratedCS ((Real.pi * k.hbarc) ^ 2) er stat br init inter).map (· / c) := by
    intro er stat br
    simp only [integratedCS, fdiv, mul_pow, mul_eq_zero, pow_eq_zero_iff (two_ne_zero), hc.ne', false_or]
    split
    · rfl
    · simp only [Bind.bind, Except.bind, partialWidths_scaled]
      cases inter.partialWidths with
      | error e => rfl
      | ok p =>
        simp only [Except.map]
        rw [show (init.scaled c).Jpi = init.Jpi from rfl, lookup_scaled]
        cases lookup init.Jpi p with
        | error e => rfl
        | ok g =>
          simp only [Except.map, Except.ok.injEq]
          have := hc.ne'
          field_simp
  simp only [mkResonance, e1, e2, branchingRatio_scaled hc.ne', e3, Bind.bind, Except.bind]
  cases statFactor init inter with
  | error e => exact ⟨fun e h => h, fun r h => by cases h⟩
  | ok st =>
    cases branchingRatio inter final with
    | error e => exact ⟨fun e h => h, fun r h => by cases h⟩
    | ok b =>
      simp only
      cases integratedCS ((Real.pi * k.hbarc) ^ 2) (noRecoil (inter.exc - init.exc)) st b init inter with
      | error e => exact ⟨fun e h => h, fun r h => by cases h⟩
      | ok i =>
        refine ⟨fun e h => (by cases h), fun r h => ?_⟩
        cases h
        exact ⟨_, rfl, rfl, rfl, rfl, rfl⟩

theorem normPdf_scaled {c : ℝ} (hc : 0 < c) (l s x : ℝ) : normPdf (c * l) (c * s) (c * x) = normPdf l s x / c := by
  simp only [normPdf]
  rw [← mul_sub, mul_div_mul_left _ _ hc.ne', mul_assoc, div_div, mul_comm c]

theorem cauchyPdf_scaled {c : ℝ} (hc : 0 < c) (l s x : ℝ) : cauchyPdf (c * l) (c * s) (c * x) = cauchyPdf l s x / c := by
  simp only [cauchyPdf]
  rw [← mul_sub, mul_div_mul_left _ _ hc.ne', div_div]
  congr 1
  ring

theorem normCdf_scaled {c : ℝ} (hc : 0 < c) (l s x : ℝ) : normCdf (c * l) (c * s) (c * x) = normCdf l s x := by
  have h := Measure.integral_comp_mul_left ((Set.Iic (c * x)).indicator (normPdf (c * l) (c * s))) c
  have e : ∀ t, (Set.Iic (c * x)).indicator (normPdf (c * l) (c * s)) (c * t) = 1 / c * (Set.Iic x).indicator (normPdf l s) t := by
    intro t
    by_cases ht : t ≤ x
    · rw [Set.indicator_of_mem (Set.mem_Iic.2 (mul_le_mul_of_nonneg_left ht hc.le)), Set.indicator_of_mem (Set.mem_Iic.2 ht), normPdf_scaled hc]
      ring
    · rw [Set.indicator_of_notMem (by simpa using mul_lt_mul_of_pos_left (not_le.1 ht) hc), Set.indicator_of_notMem (by simpa using ht), mul_zero]
  simp only [e, integral_const_mul, integral_indicator measurableSet_Iic, smul_eq_mul, abs_of_pos (inv_pos.2 hc), one_div] at h
  exact (mul_left_cancel₀ (inv_pos.2 hc).ne' h).symm

theorem cauchyCdf_scaled {c : ℝ} (hc : 0 < c) (l s x : ℝ) : cauchyCdf (c * l) (c * s) (c * x) = cauchyCdf l s x := by
  simp only [cauchyCdf]
  rw [← mul_sub, mul_div_mul_left _ _ hc.ne']

theorem cauchyPpf_scaled (c l s q : ℝ) : cauchyPpf (c * l) (c * s) q = c * cauchyPpf l s q := by
  simp only [cauchyPpf]; ring

theorem voigtProfile_scaled {c : ℝ} (hc : 0 < c) (x σ γ : ℝ) : voigtProfile (c * x) (c * σ) (c * γ) = (voigtProfile x σ γ).times (1 / c) := by
  have hn : ∀ σ x, normPdf 0 (c * σ) (c * x) = 1 / c * normPdf 0 σ x := by
    intro σ x
    have := normPdf_scaled hc 0 σ x
    rw [mul_zero] at this
    rw [this]; ring
  have hl : ∀ γ x, cauchyPdf 0 (c * γ) (c * x) = 1 / c * cauchyPdf 0 γ x := by
    intro σ x
    have := cauchyPdf_scaled hc 0 σ x
    rw [mul_zero] at this
    rw [this]; ring
  simp only [voigtProfile, mul_eq_zero, hc.ne', false_or]
  split
  · split
    · split
      · rfl
      · simp [Fl.times]
    · simp only [Fl.times, hl]
  · split
    · simp only [Fl.times, hn]
    · simp only [Fl.times]
      congr 1
      have h := Measure.integral_comp_mul_left (fun t => normPdf 0 (c * σ) t * cauchyPdf 0 (c * γ) (c * x - t)) c
      simp only [← mul_sub, hn, hl, smul_eq_mul, abs_of_pos (inv_pos.2 hc)] at h
      have e : ∀ y, 1 / c * normPdf 0 σ y * (1 / c * cauchyPdf 0 γ (x - y)) = 1 / c * (1 / c) * (normPdf 0 σ y * cauchyPdf 0 γ (x - y)) := by
        intro y; ring
      simp only [e, integral_const_mul] at h
      have := hc.ne'
      field_simp at h ⊢
      linarith

theorem pvGamma_scaled {c : ℝ} (hc : 0 < c) (g l : ℝ) : pvGamma (c * g) (c * l) = c * pvGamma g l := by
  have h5 : 0 < c ^ 5 := by positivity
  simp only [pvGamma]
  have e : c * g * (c * g) * (c * g * (c * g)) * (c * g) + 2.69269 * (c * g * (c * g) * (c * g * (c * g))) * (c * l) +
      2.42843 * (c * g * (c * g)) * (c * g) * (c * l * (c * l)) + 4.47163 * (c * g * (c * g)) * (c * l * (c * l) * (c * l)) +
      0.07842 * (c * g) * (c * l * (c * l) * (c * l * (c * l))) + c * l * (c * l) * (c * l * (c * l)) * (c * l) =
      c ^ 5 * (g * g * (g * g) * g + 2.69269 * (g * g * (g * g)) * l + 2.42843 * (g * g) * g * (l * l)
        + 4.47163 * (g * g) * (l * l * l) + 0.07842 * g * (l * l * (l * l)) + l * l * (l * l) * l) := by ring
  rw [e]
  generalize g * g * (g * g) * g + 2.69269 * (g * g * (g * g)) * l + 2.42843 * (g * g) * g * (l * l)
        + 4.47163 * (g * g) * (l * l * l) + 0.07842 * g * (l * l * (l * l)) + l * l * (l * l) * l = b
  by_cases hb : b < 0
  · rw [if_pos hb, if_pos (mul_neg_of_pos_of_neg h5 hb), mul_zero]
  · rw [if_neg hb, if_neg (not_lt.2 (mul_nonneg h5.le (not_lt.1 hb))), Real.mul_rpow h5.le (not_lt.1 hb)]
    congr 1
    rw [← Real.rpow_natCast, ← Real.rpow_mul hc.le]
    norm_num

theorem pvEta_scaled {c : ℝ} (hc : 0 < c) (l g : ℝ) : pvEta (c * l) (c * g) = pvEta l g := by
  simp only [pvEta, one_div, mul_inv]
  have := hc.ne'
  field_simp

/-- The object of the scaled widths. -/
theorem mkPV_scaled {c : ℝ} (hc : 0 < c) (er w d : ℝ) :
    mkPV (c * er) (c * w) (c * d) = ⟨c * (mkPV er w d).er, c * (mkPV er w d).sigma, c * (mkPV er w d).bigGamma, (mkPV er w d).eta,
      c * (mkPV er w d).gammaG, c * (mkPV er w d).gammaL, c * (mkPV er w d).gamma⟩ := by
  have e : 2 * Real.sqrt (Real.log 2) * (c * d) = c * (2 * Real.sqrt (Real.log 2) * d) := by ring
  simp only [mkPV, e, pvGamma_scaled hc, pvEta_scaled hc, PV.mk.injEq, true_and]
  refine ⟨by ring, by ring, by ring, by ring⟩

theorem getDopplerWidth_scaled (k : PhysConst) (c amu T E : ℝ) : getDopplerWidth k amu T (c * E) = (getDopplerWidth k amu T E).map (c * ·) := by
  simp only [getDopplerWidth]
  split
  · rfl
  · simp only [Except.map, dopplerWidth, mul_assoc]

theorem pv_pdf_scaled {c : ℝ} (hc : 0 < c) (er w d E : ℝ) :
    (mkPV (c * er) (c * w) (c * d)).pdf (c * E) = ((mkPV er w d).pdf E).times (1 / c) := by
  have hv : (mkPV (c * er) (c * w) (c * d)).Valid ↔ (mkPV er w d).Valid := by
    rw [mkPV_scaled hc]
    simp only [PV.Valid, PV.normScale, PV.cauchyScale]
    rw [mul_div_assoc, mul_left_comm, mul_pos_iff_of_pos_left hc, mul_pos_iff_of_pos_left hc]
  simp only [PV.pdf]
  by_cases hV : (mkPV er w d).Valid
  · rw [if_pos hV, if_pos (hv.2 hV), mkPV_scaled hc]
    simp only [PV.pdfR, PV.normScale, PV.cauchyScale, Fl.times]
    rw [mul_div_assoc, mul_left_comm 0.5, normPdf_scaled hc, cauchyPdf_scaled hc]
    congr 1
    ring
  · rw [if_neg hV, if_neg (hv.not.2 hV)]
    rfl

theorem smul_times {c i : ℝ} (hc : 0 < c) (p : Fl) : (p.times (1 / c)).smul (i / c) = (p.smul i).times (1 / c ^ 2) := by
  have h1 : 0 < i / c ↔ 0 < i := by rw [div_pos_iff_of_pos_right hc]
  have h2 : i / c < 0 ↔ i < 0 := by rw [div_neg_iff]; constructor <;> intro h <;> [skip; exact .inr ⟨h, hc⟩]; rcases h with h | h <;> linarith [h.1, h.2]
  cases p with
  | fin x => simp only [Fl.times, Fl.smul]; congr 1; ring
  | nan => rfl
  | pinf => simp only [Fl.times, Fl.smul, h1, h2]; split <;> [rfl; (split <;> rfl)]
  | ninf => simp only [Fl.times, Fl.smul, h1, h2]; split <;> [rfl; (split <;> rfl)]

/-- C165, the part that holds: if all excitation energies and partial widths are multiplied by `c > 0`, the construction of a resonance fails with the same exception
or succeeds with the resonance energy multiplied by `c`, the energy-integrated cross section divided by `c`, and a cross section that
is divided by `c²` at the energies multiplied by `c`. This holds for all classes with a width that is computed from the levels. Missing: the box of the base
class, for which it is false (`C165_refuted`). -/
theorem C165_partial (s : Shape) (hs : ∀ R, s ≠ .box R) (k : PhysConst) {c : ℝ} (hc : 0 < c) (init inter : Level) (final : Option Level) :
    (∀ e, s.build k init inter final = .error e → s.build k (init.scaled c) (inter.scaled c) (final.map (Level.scaled c)) = .error e) ∧
    ∀ r, s.build k init inter final = .ok r →
      ∃ r', s.build k (init.scaled c) (inter.scaled c) (final.map (Level.scaled c)) = .ok r' ∧
        r'.er = c * r.er ∧ r'.ics = r.ics / c ∧ ∀ E, r'.call (c * E) = (r.call E).map (Fl.times (1 / c ^ 2)) := by
  obtain ⟨h1, h2⟩ := mkResonance_scaled k hc init inter final
  cases hr : mkResonance k init inter final noRecoil with
  | error e =>
    have h := h1 e hr
    refine ⟨fun e' he => ?_, fun r he => ?_⟩
    · cases s with
      | box R => exact absurd rfl (hs R)
      | _ =>
        simp only [Shape.build, mkBreitWigner, mkGauss, mkVoigt, mkPseudoVoigt, hr, h, Bind.bind, Except.bind] at he ⊢
        exact he
    · cases s with
      | box R => exact absurd rfl (hs R)
      | _ =>
        simp only [Shape.build, mkBreitWigner, mkGauss, mkVoigt, mkPseudoVoigt, hr, Bind.bind, Except.bind] at he
        cases he
  | ok r =>
    obtain ⟨r', h, a1, a2, -⟩ := h2 r hr
    cases s with
    | box R => exact absurd rfl (hs R)
    | breitWigner =>
      simp only [Shape.build, mkBreitWigner, hr, h, Bind.bind, Except.bind, width_scaled]
      cases inter.width with
      | error e => exact ⟨fun e h => h, fun r h => (by cases h)⟩
      | ok w =>
        refine ⟨fun e h => (by cases h), fun r0 h0 => ?_⟩
        cases h0
        refine ⟨_, rfl, a1, a2, fun E => ?_⟩
        simp only [Reso.call, cauchyDist, scipyDist, locScale, Bind.bind, Except.bind, Except.map, if_true, a1, a2]
        rw [mul_left_comm 0.5]
        by_cases hw : 0 < 0.5 * w
        · rw [if_pos hw, if_pos (mul_pos hc hw), cauchyPdf_scaled hc, ← smul_times hc]
          simp only [Fl.times]
          rw [div_eq_inv_mul (_ : ℝ) c, one_div, div_eq_inv_mul]
        · rw [if_neg hw, if_neg (by rwa [mul_pos_iff_of_pos_left hc])]
          rfl
    | gauss amu T =>
      simp only [Shape.build, mkGauss, hr, h, Bind.bind, Except.bind, a1, getDopplerWidth_scaled]
      cases getDopplerWidth k amu T r.er with
      | error e => exact ⟨fun e h => h, fun r h => (by cases h)⟩
      | ok d =>
        refine ⟨fun e h => (by cases h), fun r0 h0 => ?_⟩
        cases h0
        refine ⟨_, rfl, rfl, a2, fun E => ?_⟩
        simp only [Reso.call, normDist, scipyDist, locScale, Bind.bind, Except.bind, Except.map, if_true, a2]
        rw [mul_div_assoc]
        by_cases hw : 0 < d / Real.sqrt 2
        · rw [if_pos hw, if_pos (mul_pos hc hw), normPdf_scaled hc, ← smul_times hc]
          simp only [Fl.times]
          rw [div_eq_inv_mul (_ : ℝ) c, one_div, div_eq_inv_mul]
        · rw [if_neg hw, if_neg (by rwa [mul_pos_iff_of_pos_left hc])]
          rfl
    | pseudoVoigt amu T =>
      simp only [Shape.build, mkPseudoVoigt, hr, h, Bind.bind, Except.bind, a1, getDopplerWidth_scaled, width_scaled]
      cases inter.width with
      | error e => exact ⟨fun e h => h, fun r h => (by cases h)⟩
      | ok w =>
        simp only [Except.map]
        cases getDopplerWidth k amu T r.er with
        | error e => exact ⟨fun e h => h, fun r h => (by cases h)⟩
        | ok d =>
          refine ⟨fun e h => (by cases h), fun r0 h0 => ?_⟩
          cases h0
          refine ⟨_, rfl, rfl, a2, fun E => ?_⟩
          simp only [Reso.call, PV.toDist, if_true, Bind.bind, Except.bind, a2]
          rw [pv_pdf_scaled hc, smul_times hc]
    | voigt amu T =>
      simp only [Shape.build, mkVoigt, mkPseudoVoigt, hr, h, Bind.bind, Except.bind, a1, getDopplerWidth_scaled, width_scaled]
      cases inter.width with
      | error e => exact ⟨fun e h => h, fun r h => (by cases h)⟩
      | ok w =>
        simp only [Except.map]
        cases hd : getDopplerWidth k amu T r.er with
        | error e => exact ⟨fun e h => h, fun r h => (by cases h)⟩
        | ok d =>
          have hd' : getDopplerWidth k amu T (c * r.er) = .ok (c * d) := by rw [getDopplerWidth_scaled, hd]; rfl
          simp only [hd, hd']
          refine ⟨fun e h => (by cases h), fun r0 h0 => ?_⟩
          cases h0
          refine ⟨_, rfl, rfl, a2, fun E => ?_⟩
          simp only [Reso.call, PV.toSemiDist, if_true, Bind.bind, Except.bind, a2]
          rw [mkPV_scaled hc]
          simp only
          rw [← mul_sub, voigtProfile_scaled hc, smul_times hc]

/-! ## Grids -/

/-- a request for a grid with the limits multiplied by `c`; a coverage stays -/
def Req.scaled (c : ℝ) : Req → Req
  | .cov p => .cov p
  | .lims a b => .lims (c * a) (c * b)

theorem times_add (c : ℝ) (a b : Fl) : (a.add b).times c = (a.times c).add (b.times c) := by
  cases a <;> cases b <;> simp [Fl.add, Fl.times, mul_add]

theorem times_smul (c x : ℝ) (a : Fl) : (a.smul x).times c = (a.times c).smul x := by
  cases a with
  | fin y => simp only [Fl.smul, Fl.times]; congr 1; ring
  | nan => rfl
  | pinf => simp only [Fl.smul, Fl.times]; split_ifs <;> rfl
  | ninf => simp only [Fl.smul, Fl.times]; split_ifs <;> rfl

theorem linspace_times (c : ℝ) (a b : Fl) (n : ℤ) : linspace (a.times c) (b.times c) n = (linspace a b n).map (List.map (Fl.times c)) := by
  simp only [linspace]
  split
  · rfl
  · split
    · rfl
    · simp only [Except.map, List.map_cons, List.map_nil, times_add, times_smul]
    · simp only [Except.map, List.map_append, List.map_map, List.map_cons, List.map_nil]
      congr 2
      refine List.map_congr_left fun i _ => ?_
      simp only [Function.comp, times_add, times_smul]

theorem invOf_normCdf_scaled {c s : ℝ} (hc : 0 < c) (hs : 0 < s) (l : ℝ) {q : ℝ} (h0 : 0 < q) (h1 : q < 1) :
    invOf (normCdf (c * l) (c * s)) q = c * invOf (normCdf l s) q := by
  have key : ∀ l s, 0 < s → normCdf l s (invOf (normCdf l s) q) = q := by
    intro l s hs
    obtain ⟨x, hx⟩ := (norm_good l hs).surj h0 h1
    have : ∃ x, normCdf l s x = q := ⟨x, hx⟩
    rw [invOf, dif_pos this]
    exact this.choose_spec
  refine (norm_good (c * l) (mul_pos hc hs)).strictMono.injective ?_
  rw [key _ _ (mul_pos hc hs), normCdf_scaled hc, key _ _ hs]

/-- C165, grids: the coverage intervals and both kinds of grids of Breit-Wigner and Gauss resonances are multiplied by `c`, whatever the
widths; also when the result is an exception or contains infinities or nan. Missing: pseudo-Voigt and
Voigt resonances, whose quantiles have an absolute tolerance (C71). -/
theorem C165_grids_partial (s : Shape) (hs : s = .breitWigner ∨ ∃ amu T, s = .gauss amu T) (k : PhysConst) {c : ℝ} (hc : 0 < c) {init inter : Level}
    {final : Option Level} {r r' : Reso} (h : s.build k init inter final = .ok r)
    (h' : s.build k (init.scaled c) (inter.scaled c) (final.map (Level.scaled c)) = .ok r') (req : Req) (n : ℤ) :
    r'.probGrid (req.scaled c) n = (r.probGrid req n).map (Option.map (List.map (Fl.times c))) ∧
    r'.energyGrid (req.scaled c) n = (r.energyGrid req n).map (List.map (Fl.times c)) ∧
    ∀ p, (∀ e, r.coverageInterval p = .error e → r'.coverageInterval p = .error e) ∧
      ∀ ci, r.coverageInterval p = .ok ci → ∃ ci', r'.coverageInterval p = .ok ci' ∧ ci'.lo = ci.lo.times c ∧ ci'.hi = ci.hi.times c ∧
        ci'.warnNegative = ci.warnNegative ∧ (ci'.warnInfinite ↔ ci.warnInfinite) := by
  have key : (∀ xs : List ℝ, r'.dist.cdf r'.params (xs.map (c * ·)) = r.dist.cdf r.params xs) ∧
      (∀ qs, r'.dist.ppf r'.params qs = (r.dist.ppf r.params qs).map (Option.map (List.map (Fl.times c)))) ∧
      r'.dist.cdf [] = r.dist.cdf [] := by
    have dist : ∀ (pdf cdf ppf : ℝ → ℝ → ℝ → ℝ) (l w : ℝ), (∀ x, 0 < w → cdf (c * l) (c * w) (c * x) = cdf l w x) →
        (∀ q, 0 < w → 0 < q → q < 1 → ppf (c * l) (c * w) q = c * ppf l w q) →
        (∀ xs : List ℝ, (scipyDist pdf cdf ppf (fun _ _ => .ninf) (fun _ _ => .pinf)).cdf [c * l, c * w] (xs.map (c * ·)) =
          (scipyDist pdf cdf ppf (fun _ _ => .ninf) (fun _ _ => .pinf)).cdf [l, w] xs) ∧
        ∀ qs, (scipyDist pdf cdf ppf (fun _ _ => .ninf) (fun _ _ => .pinf)).ppf [c * l, c * w] qs =
          ((scipyDist pdf cdf ppf (fun _ _ => .ninf) (fun _ _ => .pinf)).ppf [l, w] qs).map (Option.map (List.map (Fl.times c))) := by
      intro pdf cdf ppf l w h1 h2
      refine ⟨fun xs => ?_, fun qs => ?_⟩
      · simp only [scipyDist, locScale, Bind.bind, Except.bind, List.map_map]
        congr 1
        refine List.map_congr_left fun x _ => ?_
        simp only [Function.comp]
        by_cases hw : 0 < w
        · rw [if_pos hw, if_pos (mul_pos hc hw), h1 x hw]
        · rw [if_neg hw, if_neg (by rwa [mul_pos_iff_of_pos_left hc])]
      · simp only [scipyDist, locScale, Bind.bind, Except.bind, Except.map, Option.map_some, List.map_map]
        congr 2
        refine List.map_congr_left fun q _ => ?_
        simp only [Function.comp]
        by_cases hw : 0 < w
        · rw [if_pos hw, if_pos (mul_pos hc hw)]
          cases q with
          | fin q =>
            simp only [ppfAt]
            split
            · rfl
            · split
              · rfl
              · split
                · rename_i hq
                  rw [h2 q hw hq.1 hq.2]; rfl
                · rfl
          | _ => rfl
        · rw [if_neg hw, if_neg (by rwa [mul_pos_iff_of_pos_left hc])]
          rfl
    obtain ⟨g1, g2⟩ := mkResonance_scaled k hc init inter final
    rcases hs with rfl | ⟨amu, T, rfl⟩
    · simp only [Shape.build, mkBreitWigner, Bind.bind, Except.bind, width_scaled] at h h'
      cases hr : mkResonance k init inter final noRecoil with
      | error e => rw [hr] at h; cases h
      | ok r0 =>
        obtain ⟨r0', g3, g4, -⟩ := g2 r0 hr
        rw [hr] at h
        rw [g3] at h'
        cases hw : inter.width with
        | error e => rw [hw] at h; cases h
        | ok w =>
          rw [hw] at h h'
          cases h
          cases h'
          have := dist cauchyPdf cauchyCdf cauchyPpf r0.er (0.5 * w) (fun x _ => cauchyCdf_scaled hc _ _ _) (fun q _ _ _ => cauchyPpf_scaled _ _ _ _)
          rw [mul_left_comm c] at this
          simp only [g4]
          exact ⟨this.1, this.2, trivial⟩
    · simp only [Shape.build, mkGauss, Bind.bind, Except.bind] at h h'
      cases hr : mkResonance k init inter final noRecoil with
      | error e => rw [hr] at h; cases h
      | ok r0 =>
        obtain ⟨r0', g3, g4, -⟩ := g2 r0 hr
        rw [hr] at h
        rw [g3] at h'
        simp only [g4, getDopplerWidth_scaled] at h h'
        cases hd : getDopplerWidth k amu T r0.er with
        | error e => rw [hd] at h; cases h
        | ok d =>
          rw [hd] at h h'
          cases h
          cases h'
          have := dist normPdf normCdf (fun l s => invOf (normCdf l s)) r0.er (d / Real.sqrt 2) (fun x _ => normCdf_scaled hc _ _ _)
            (fun q hw h0 h1 => invOf_normCdf_scaled hc hw _ h0 h1)
          rw [← mul_div_assoc] at this
          exact ⟨this.1, this.2, rfl⟩
  obtain ⟨k1, k2, k3⟩ := key
  have hci : ∀ p, (∀ e, r.coverageInterval p = .error e → r'.coverageInterval p = .error e) ∧
      ∀ ci, r.coverageInterval p = .ok ci → ∃ ci', r'.coverageInterval p = .ok ci' ∧ ci'.lo = ci.lo.times c ∧ ci'.hi = ci.hi.times c ∧
        ci'.warnNegative = ci.warnNegative ∧ (ci'.warnInfinite ↔ ci.warnInfinite) := by
    intro p
    simp only [Reso.coverageInterval, Bind.bind, Except.bind, k2, k3]
    cases r.dist.ppf r.params [.fin (0.5 * (1 - p)), .fin (0.5 * (1 + p))] with
    | error e => exact ⟨fun e h => h, fun r h => (by cases h)⟩
    | ok g =>
      simp only [Except.map]
      match g with
      | some [lo, hi] =>
        have n1 : (lo.times c).isNeg ↔ lo.isNeg := by
          cases lo <;> simp only [Fl.times, Fl.isNeg]
          rw [mul_neg_iff]
          constructor
          · rintro (h | h) <;> linarith [h.1, h.2]
          · exact fun h => .inl ⟨hc, h⟩
        have n2 : (hi.times c).isInf ↔ hi.isInf := by cases hi <;> simp [Fl.times, Fl.isInf]
        simp only [Option.map_some, List.map_cons, List.map_nil]
        by_cases hn : lo.isNeg
        · rw [if_pos hn, if_pos (n1.2 hn)]
          cases r.dist.cdf [] [0] with
          | error e => exact ⟨fun e h => h, fun r h => (by cases h)⟩
          | ok v =>
            match v with
            | [v] => exact ⟨fun e h => (by cases h), fun ci h => (by cases h; exact ⟨_, rfl, rfl, rfl, rfl, n2⟩)⟩
            | [] => exact ⟨fun e h => h, fun r h => (by cases h)⟩
            | _ :: _ :: _ => exact ⟨fun e h => h, fun r h => (by cases h)⟩
        · rw [if_neg hn, if_neg (n1.not.2 hn)]
          exact ⟨fun e h => (by cases h), fun ci h => (by cases h; exact ⟨_, rfl, rfl, rfl, rfl, n2⟩)⟩
      | none => exact ⟨fun e h => h, fun r h => (by cases h)⟩
      | some [] => exact ⟨fun e h => h, fun r h => (by cases h)⟩
      | some [_] => exact ⟨fun e h => h, fun r h => (by cases h)⟩
      | some (_ :: _ :: _ :: _) => exact ⟨fun e h => h, fun r h => (by cases h)⟩
  refine ⟨?_, ?_, hci⟩
  · cases req with
    | cov p =>
      simp only [Reso.probGrid, Req.scaled, Bind.bind, Except.bind]
      cases linspace (.fin (0.5 * (1 - p))) (.fin (0.5 * (1 + p))) n with
      | error e => rfl
      | ok qs =>
        simp only [k2]
        cases r.dist.ppf r.params qs <;> rfl
    | lims a b =>
      have := k1 [a, b]
      simp only [List.map_cons, List.map_nil] at this
      simp only [Reso.probGrid, Req.scaled, Bind.bind, Except.bind, this]
      cases r.dist.cdf r.params [a, b] with
      | error e => rfl
      | ok l =>
        match l with
        | [l0, l1] =>
          simp only
          cases linspace l0 l1 n with
          | error e => rfl
          | ok qs =>
            simp only [k2]
            cases r.dist.ppf r.params qs with
            | error e => rfl
            | ok g =>
              match g with
              | none => rfl
              | some [] => rfl
              | some [x] => rfl
              | some (x :: y :: g) =>
                simp [Except.map, Reso.setEnds, Fl.times]
        | [] => rfl
        | [_] => rfl
        | _ :: _ :: _ :: _ => rfl
  · cases req with
    | cov p =>
      obtain ⟨c1, c2⟩ := hci p
      simp only [Reso.energyGrid, Req.scaled, Bind.bind, Except.bind]
      cases h : r.coverageInterval p with
      | error e => rw [c1 e h]; rfl
      | ok ci =>
        obtain ⟨ci', e, e1, e2, -⟩ := c2 ci h
        rw [e]
        simp only [e1, e2]
        exact linspace_times c _ _ n
    | lims a b => exact linspace_times c (.fin a) (.fin b) n

/-- C165 is false of the default distribution of the base class, a box that is always 1 MeV wide: its height does not scale. -/
theorem C165_refuted {k : PhysConst} {c : ℝ} (hc : 0 < c) (h1 : c ≠ 1) {init inter : Level} {final : Option Level} {r : Reso}
    (h : (Shape.box noRecoil).build k init inter final = .ok r) (hI : r.ics ≠ 0) :
    ∃ r', (Shape.box noRecoil).build k (init.scaled c) (inter.scaled c) (final.map (Level.scaled c)) = .ok r' ∧
      r.call r.er = .ok (.fin r.ics) ∧ r'.call (c * r.er) = .ok (.fin (r.ics / c)) ∧ r.ics / c ≠ r.ics / c ^ 2 := by
  obtain ⟨r', h', a1, a2, -⟩ := (mkResonance_scaled k hc init inter final).2 r h
  have call : ∀ {init inter final} {r : Reso}, mkResonance k init inter final noRecoil = .ok r → r.call r.er = .ok (.fin r.ics) := by
    intro init inter final r h
    simp only [mkResonance, Bind.bind, Except.bind] at h
    split at h
    · cases h
    · split at h
      · cases h
      · split at h
        · cases h
        · cases h
          simp only [Reso.call, uniformDist, scipyDist, locScale, Bind.bind, Except.bind, if_true, zero_lt_one]
          rw [uniformPdf, if_pos ⟨by linarith, by linarith⟩]
          simp [Fl.smul]
  refine ⟨r', h', call h, ?_, fun e => ?_⟩
  · have := call h'
    rwa [a1, a2] at this
  · have := hc.ne'
    field_simp at e
    exact h1 e

/-- C165 for the total Compton cross section: scaling the energy and the mass of the particle divides it by the square. -/
theorem C165_compton (k : PhysConst) (s : KN) {c : ℝ} (hc : 0 < c) (E : ℝ) :
    KN.totalFl k ⟨s.Z, c * s.mc2⟩ (c * E) = (s.totalFl k E).map (Fl.times (1 / c ^ 2)) := by
  have hx : c * E / (c * s.mc2) = E / s.mc2 := mul_div_mul_left _ _ hc.ne'
  have ht : KN.total k ⟨s.Z, c * s.mc2⟩ (c * E) = 1 / c ^ 2 * s.total k E := by
    simp only [KN.total, KN.scale, hx]
    rw [show c * s.mc2 * (c * s.mc2) = c ^ 2 * (s.mc2 * s.mc2) by ring, div_mul_eq_div_div_swap]
    ring
  simp only [KN.totalFl, hx, ht, mul_eq_zero, hc.ne', false_or]
  split_ifs <;> rfl

/-- The hypotheses are met: a Breit-Wigner resonance and its levels scaled by 1000. -/
example : ∃ r r', Shape.breitWigner.build exConst exGround exMid none = .ok r ∧
    Shape.breitWigner.build exConst (exGround.scaled 1000) (exMid.scaled 1000) none = .ok r' ∧ 0 < r.ics ∧ r'.er = 2000 := by
  obtain ⟨r, hr, he, hI⟩ := exMid_resonance
  have hb : Shape.breitWigner.build exConst exGround exMid none = .ok { r with dist := cauchyDist, params := [r.er, 0.5 * 1e-5] } := by
    simp [Shape.build, mkBreitWigner, hr, exMid_width, Bind.bind, Except.bind]
  obtain ⟨r', h', a1, -⟩ := (C165_partial .breitWigner (by simp) exConst (c := 1000) (by norm_num) exGround exMid none).2 _ hb
  exact ⟨_, r', hb, h', hI, by rw [a1]; simp only [he]; norm_num⟩

end Ries
