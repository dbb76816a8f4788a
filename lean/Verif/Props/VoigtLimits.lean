import Verif.Lemmas.VoigtLimits
import Verif.Props.PseudoVoigt

/-! # Properties C96, C97: temperature dependence of the Voigt shape, narrow resonances -/

open MeasureTheory Filter Topology Set

namespace Ries

/-! ## C96 -/

theorem coldVoigt_le (er : ℝ) {g : ℝ} (hg : 0 < g) {s : ℝ} (hs : 0 ≤ s) (E : ℝ) :
    0 < coldVoigt er g E s ∧ coldVoigt er g E s ≤ coldVoigt er g er 0 := by
  rcases hs.eq_or_lt with rfl | hs'
  · rw [coldVoigt_zero, coldVoigt_zero]
    exact ⟨cauchyPdf_pos hg _ _, (cauchy_peaked er hg).le_peak E⟩
  · constructor
    · rw [← coldVoigt_eq er E g hs']; exact voigt_pos er hs' hg E
    · refine le_trans ?_ (coldVoigt_anti er hg le_rfl hs').le
      rw [← coldVoigt_eq er E g hs', ← coldVoigt_eq er er g hs']
      exact (voigt_peaked er hs' hg).le_peak E

/-- the resonances at different temperatures have the same resonance energy and strength -/
theorem mkVoigt_same {k : PhysConst} {init inter : Level} {final : Option Level} {amu T T' : ℝ} {r r' : Reso}
    (hr : mkVoigt k init inter amu T final = .ok r) (hr' : mkVoigt k init inter amu T' final = .ok r') :
    r'.er = r.er ∧ r'.ics = r.ics ∧ r.er = inter.exc - init.exc := by
  obtain ⟨r0, d, ps, hr0, -, rfl⟩ := build_inv (s := .voigt amu T) hr
  obtain ⟨r0', d', ps', hr0', -, rfl⟩ := build_inv (s := .voigt amu T') hr'
  have h1 : mkResonance k init inter final noRecoil = .ok r0 := hr0
  have h2 : mkResonance k init inter final noRecoil = .ok r0' := hr0'
  rw [h1] at h2; cases h2
  exact ⟨rfl, rfl, (mkResonance_inv h1).1⟩

theorem voigt_sigma {k : PhysConst} {init inter : Level} {final : Option Level} {amu T w : ℝ} {r : Reso}
    (hr : mkVoigt k init inter amu T final = .ok r) (ha : 0 < amu) (hT : 0 ≤ T) (hE : init.exc < inter.exc)
    (hw : inter.width = .ok w) (hpos : 0 < w) :
    r.HasSigma fun E => r.ics * coldVoigt r.er (w / 2) E (dopplerWidth k amu T r.er / Real.sqrt 2) := by
  have her := (mkVoigt_same hr hr).2.2
  have hpe : 0 < r.er := by rw [her]; linarith
  intro E
  rw [voigt_call hr ha.ne' hw E]
  have hw2 : 0.5 * w = w / 2 := by ring
  rcases hT.eq_or_lt with rfl | hT'
  · have h0 : dopplerWidth k amu 0 r.er = 0 := by simp [dopplerWidth]
    simp only [h0, zero_div, voigtProfile, if_true, coldVoigt_zero, hw2]
    rw [if_neg (by linarith), cauchyPdf_shift]
    rfl
  · have hD := dopplerWidth_pos k ha hT' hpe
    have hs : 0 < dopplerWidth k amu T r.er / Real.sqrt 2 := by positivity
    beta_reduce
    rw [← coldVoigt_eq r.er E _ hs, voigtProfile, if_neg hs.ne', if_neg (by linarith), hw2]
    simp only [Fl.smul, voigtDensity, Except.ok.injEq, Fl.fin.injEq]
    congr 2
    funext t
    rw [← cauchyPdf_shift r.er]
    congr 2
    ring

/-- C96: the Voigt cross section of given states is a continuous function of the temperature down to 0, where it is the
Breit-Wigner cross section. Its maximum strictly decreases with the temperature, and at no temperature and energy is it
larger than the maximum of the Breit-Wigner cross section. -/
theorem C96_temperature {k : PhysConst} {init inter : Level} {final : Option Level} {amu w : ℝ} {r : ℝ → Reso} {b : Reso}
    (hr : ∀ T, 0 ≤ T → mkVoigt k init inter amu T final = .ok (r T)) (hb : mkBreitWigner k init inter final = .ok b)
    (ha : 0 < amu) (hE : init.exc < inter.exc) (hw : inter.width = .ok w) (hpos : 0 < w) (hI : 0 < b.ics) :
    ∃ σ : ℝ → ℝ → ℝ, (∀ T, 0 ≤ T → (r T).HasSigma (σ T)) ∧ b.HasSigma (σ 0) ∧
      (∀ E, ContinuousOn (fun T => σ T E) (Ici 0)) ∧ StrictAntiOn (fun T => σ T b.er) (Ici 0) ∧
      ∀ T, 0 ≤ T → ∀ E, 0 < σ T E ∧ σ T E ≤ σ 0 b.er := by
  have hg : 0 < w / 2 := by linarith
  have hsame := fun T hT => mkVoigt_same (hr 0 le_rfl) (hr T hT)
  have hbr : b.er = (r 0).er ∧ b.ics = (r 0).ics := by
    obtain ⟨b0, w', hb0, -, rfl⟩ := mkBreitWigner_inv hb
    obtain ⟨r0, d, ps, hr0, -, e⟩ := build_inv (s := .voigt amu 0) (hr 0 le_rfl)
    have h1 : mkResonance k init inter final noRecoil = .ok r0 := hr0
    rw [h1] at hb0; cases hb0
    rw [e]; exact ⟨rfl, rfl⟩
  have her : b.er = inter.exc - init.exc := by rw [hbr.1]; exact (hsame 0 le_rfl).2.2
  have hpe : 0 < b.er := by rw [her]; linarith
  have hs0 : ∀ T, 0 ≤ T → 0 ≤ dopplerWidth k amu T b.er / Real.sqrt 2 := by
    intro T hT; unfold dopplerWidth; positivity
  have hz : dopplerWidth k amu 0 b.er / Real.sqrt 2 = 0 := by simp [dopplerWidth]
  have hσ : ∀ T, 0 ≤ T → (r T).HasSigma fun E => b.ics * coldVoigt b.er (w / 2) E (dopplerWidth k amu T b.er / Real.sqrt 2) := by
    intro T hT
    have := voigt_sigma (hr T hT) ha hT hE hw hpos
    rwa [(hsame T hT).1, (hsame T hT).2.1, ← hbr.1, ← hbr.2] at this
  refine ⟨fun T E => b.ics * coldVoigt b.er (w / 2) E (dopplerWidth k amu T b.er / Real.sqrt 2), hσ, ?_, ?_, ?_, ?_⟩
  · intro E
    rw [← C35_zero_temperature (hr 0 le_rfl) hb ha hw hpos E]
    exact hσ 0 le_rfl E
  · intro E
    refine Continuous.continuousOn ?_
    refine continuous_const.mul ((coldVoigt_continuous b.er E hg).comp ?_)
    unfold dopplerWidth
    fun_prop
  · intro T hT T' hT' hlt
    refine mul_lt_mul_of_pos_left (coldVoigt_anti b.er hg (hs0 T hT) ?_) hI
    refine div_lt_div_of_pos_right ?_ (by positivity)
    unfold dopplerWidth
    refine mul_lt_mul_of_pos_left (Real.sqrt_lt_sqrt ?_ ?_) hpe
    · have := k.u_pos
      have := k.kB_pos
      have : (0 : ℝ) ≤ T := hT
      positivity
    · have := k.u_pos
      have := k.kB_pos
      have : 0 < 2 * k.kB * 1e-6 := by positivity
      exact div_lt_div_of_pos_right (mul_lt_mul_of_pos_left hlt this) (by positivity)
  · intro T hT E
    obtain ⟨h1, h2⟩ := coldVoigt_le b.er hg (hs0 T hT) E
    refine ⟨mul_pos hI h1, mul_le_mul_of_nonneg_left ?_ hI.le⟩
    rw [hz]; exact h2

example : ∃ (r : ℝ → Reso) (b : Reso), (∀ T, 0 ≤ T → mkVoigt exConst exGround exExcited 11 T none = .ok (r T)) ∧
    mkBreitWigner exConst exGround exExcited none = .ok b ∧ exGround.exc < exExcited.exc ∧ exExcited.width = .ok 4 := by
  obtain ⟨b, hb, -⟩ := exBreitWigner
  exact ⟨fun T => (exVoigt T).choose, b, fun T _ => (exVoigt T).choose_spec.1, hb,
    by norm_num [exGround, exExcited, groundState, state], exExcited_width⟩

/-! ## C97 -/

/-- All partial widths of a level multiplied by the same number. -/
def Level.scaleWidths (ε : ℝ) (l : Level) : Level := { l with widths := l.widths.map (List.map fun kv => (kv.1, ε * kv.2)) }

theorem lookup_scale (ε : ℝ) (key : String) (pw : List (String × ℝ)) :
    lookup key (pw.map fun kv => (kv.1, ε * kv.2)) = (lookup key pw).map (ε * ·) := by
  induction pw with
  | nil => rfl
  | cons kv pw ih =>
    simp only [List.map_cons, lookup]
    split
    · rfl
    · exact ih

theorem width_scale (ε : ℝ) (l : Level) : (l.scaleWidths ε).width = l.width.map (ε * ·) := by
  unfold Level.width Level.partialWidths Level.scaleWidths
  cases l.widths with
  | none => rfl
  | some pw =>
    simp only [Option.map_some, Bind.bind, Except.bind]
    have h : ∀ qs : List (String × ℝ), (qs.map fun kv => (kv.1, ε * kv.2)).mapM (fun kv => lookup kv.1 (pw.map fun kv => (kv.1, ε * kv.2))) =
        (qs.mapM fun kv => lookup kv.1 pw).map (List.map (ε * ·)) := by
      intro qs
      induction qs with
      | nil => rfl
      | cons q qs ih =>
        rw [List.map_cons, List.mapM_cons, List.mapM_cons, ih]
        simp only [lookup_scale]
        cases lookup q.1 pw with
        | error e => rfl
        | ok v => cases qs.mapM fun kv => lookup kv.1 pw <;> rfl
    rw [h]
    cases pw.mapM fun kv => lookup kv.1 pw with
    | error e => rfl
    | ok vs => simp only [Except.map, pyNumSum_eq]; rw [List.sum_map_mul_left, List.map_id']

theorem branching_scale {ε : ℝ} (hε : ε ≠ 0) (l : Level) (final : Option Level) :
    branchingRatio (l.scaleWidths ε) final = branchingRatio l final := by
  cases final with
  | none => rfl
  | some f =>
    simp only [branchingRatio, width_scale, Bind.bind, Except.bind]
    unfold Level.partialWidths Level.scaleWidths
    cases l.widths with
    | none => rfl
    | some pw =>
      simp only [Option.map_some, lookup_scale]
      cases lookup f.Jpi pw with
      | error e => rfl
      | ok g =>
        simp only [Except.map]
        cases l.width with
        | error e => rfl
        | ok w =>
          simp only [fdiv]
          by_cases hw : w = 0
          · simp [hw]
          · rw [if_neg (mul_ne_zero hε hw), if_neg hw, mul_div_mul_left _ _ hε]

theorem resonance_scale {ε : ℝ} (hε : ε ≠ 0) {k : PhysConst} {init inter : Level} {final : Option Level} {r : Reso}
    (h : mkResonance k init inter final noRecoil = .ok r) :
    mkResonance k init (inter.scaleWidths ε) final noRecoil = .ok { r with ics := ε * r.ics } := by
  obtain ⟨her, her0, hc, hJ, hst, hbr, ⟨pw, g0, hpw, hg0, hics⟩, hd, hp⟩ := mkResonance_inv h
  have e1 : (inter.scaleWidths ε).exc = inter.exc := rfl
  have e2 : (inter.scaleWidths ε).twoJ = inter.twoJ := rfl
  have e3 : (inter.scaleWidths ε).widths = some (pw.map fun kv => (kv.1, ε * kv.2)) := by simp [Level.scaleWidths, hpw]
  have h0 : noRecoil (inter.exc - init.exc) ≠ 0 := by rwa [← her]
  simp only [mkResonance, statFactor, branching_scale hε, hbr, integratedCS, fdiv, e1, e2, hJ, if_false, Level.partialWidths, e3,
    lookup_scale, hg0, Except.map, Bind.bind, Except.bind, pow_eq_zero_iff two_ne_zero, h0, Except.ok.injEq]
  rcases r with ⟨er, const, stat, br, ics, dist, params⟩
  simp only at *
  subst her hc hst hd hp
  rw [hics]
  congr 1
  ring

theorem pv_narrow (er E : ℝ) {d : ℝ} (hd : 0 < d) :
    Tendsto (fun w => (mkPV er w d).pdfR E) (𝓝[>] 0) (𝓝 (normPdf er (d / Real.sqrt 2) E)) := by
  have hl := sqrt_log_two_pos
  set g := 2 * Real.sqrt (Real.log 2) * d with hg
  have hg0 : 0 < g := by positivity
  have hG : Tendsto (fun w => pvGamma g w) (𝓝[>] 0) (𝓝 g) := by
    have h1 : Tendsto (fun w => pvBase g w ^ (0.2 : ℝ)) (𝓝[>] 0) (𝓝 (pvBase g 0 ^ (0.2 : ℝ))) := by
      have hc : Continuous (pvBase g) := by unfold pvBase; fun_prop
      exact ((hc.tendsto 0).rpow_const (Or.inr (by norm_num))).mono_left nhdsWithin_le_nhds
    rw [← pvGamma_eq hg0.le le_rfl, pvGamma_zero_right hg0.le] at h1
    refine h1.congr' ?_
    filter_upwards [self_mem_nhdsWithin] with w hw
    exact (pvGamma_eq hg0.le (le_of_lt hw)).symm
  have hw0 : Tendsto (fun w : ℝ => w) (𝓝[>] 0) (𝓝 0) := tendsto_id.mono_left nhdsWithin_le_nhds
  have hη : Tendsto (fun w => (mkPV er w d).eta) (𝓝[>] 0) (𝓝 0) := by
    have hq : Tendsto (fun w => w / pvGamma g w) (𝓝[>] 0) (𝓝 (0 / g)) := hw0.div hG hg0.ne'
    rw [zero_div] at hq
    have hc : Continuous fun q : ℝ => 1.36603 * q - 0.47719 * q ^ 2 + 0.11116 * q ^ 3 := by fun_prop
    have := (hc.tendsto 0).comp hq
    norm_num at this
    refine this.congr fun w => ?_
    simp only [mkPV, pvEta_ratio, Function.comp, ← hg]
    norm_num
  have hn : Tendsto (fun w => normPdf er (mkPV er w d).normScale E) (𝓝[>] 0) (𝓝 (normPdf er (d / Real.sqrt 2) E)) := by
    have hs : Tendsto (fun w => (mkPV er w d).normScale) (𝓝[>] 0) (𝓝 (d / Real.sqrt 2)) := by
      have := (hG.div_const (2 * Real.sqrt (Real.log 2))).div_const (Real.sqrt 2)
      have e : g / (2 * Real.sqrt (Real.log 2)) = d := by rw [hg]; field_simp
      rw [e] at this
      exact this
    have hpos : d / Real.sqrt 2 ≠ 0 := by positivity
    have hc : ContinuousAt (fun s => normPdf er s E) (d / Real.sqrt 2) := by
      unfold normPdf
      have : d / Real.sqrt 2 * Real.sqrt (2 * Real.pi) ≠ 0 := by positivity
      fun_prop (disch := assumption)
    exact hc.tendsto.comp hs
  have hk : Tendsto (fun w => cauchyPdf er (mkPV er w d).cauchyScale E) (𝓝[>] 0) (𝓝 (cauchyPdf er (0.5 * (0.5 * g)) E)) := by
    have hs : Tendsto (fun w => (mkPV er w d).cauchyScale) (𝓝[>] 0) (𝓝 (0.5 * (0.5 * g))) := (hG.const_mul 0.5).const_mul 0.5
    have hpos : 0.5 * (0.5 * g) ≠ 0 := by positivity
    have hc : ContinuousAt (fun s => cauchyPdf er s E) (0.5 * (0.5 * g)) := by
      unfold cauchyPdf
      have : Real.pi * (0.5 * (0.5 * g)) * (1 + ((E - er) / (0.5 * (0.5 * g))) ^ 2) ≠ 0 := by positivity
      fun_prop (disch := assumption)
    exact hc.tendsto.comp hs
  have h1 : Tendsto (fun w => 1 - (mkPV er w d).eta) (𝓝[>] 0) (𝓝 (1 - 0)) := hη.const_sub 1
  have h2 := (h1.mul hn).add (hη.mul hk)
  rw [sub_zero, one_mul, zero_mul, add_zero] at h2
  exact h2

/-- C97: for a narrow resonance (all partial widths scaled by `ε → 0` at fixed temperature) the Voigt and the pseudo-Voigt
cross section, relative to the strength, converge at every energy to the Gauss cross section. -/
theorem C97_narrow {k : PhysConst} {init inter : Level} {final : Option Level} {amu T w : ℝ} {b : Reso}
    (hb : mkGauss k init inter amu T final = .ok b) (ha : 0 < amu) (hT : 0 < T) (hE : init.exc < inter.exc)
    (hw : inter.width = .ok w) (hpos : 0 < w) :
    ∃ σ : ℝ → ℝ, b.HasSigma σ ∧ ∀ s : Shape, s = .voigt amu T ∨ s = .pseudoVoigt amu T →
      ∃ σ' : ℝ → ℝ → ℝ, (∀ ε, 0 < ε → ∃ r, s.build k init (inter.scaleWidths ε) final = .ok r ∧ r.er = b.er ∧
        r.ics = ε * b.ics ∧ r.HasSigma (σ' ε)) ∧ ∀ E, Tendsto (fun ε => σ' ε E / ε) (𝓝[>] 0) (𝓝 (σ E)) := by
  obtain ⟨b0, hb0, -, rfl⟩ := mkGauss_inv hb
  have her := (mkResonance_inv hb0).1
  have hpe : 0 < b0.er := by rw [her]; unfold noRecoil; linarith
  have hD := dopplerWidth_pos k ha hT hpe
  set d := dopplerWidth k amu T b0.er with hd
  have hs : 0 < d / Real.sqrt 2 := by positivity
  refine ⟨_, (analytic_norm (r := { b0 with dist := normDist, params := [b0.er, d / Real.sqrt 2] }) rfl rfl hs).sigma, ?_⟩
  have hwε : ∀ ε, (inter.scaleWidths ε).width = .ok (ε * w) := fun ε => by rw [width_scale, hw]; rfl
  have hcancel : ∀ x ε : ℝ, ε ≠ 0 → ε * b0.ics * x / ε = b0.ics * x := fun x ε hε => by field_simp
  have hscale : Tendsto (fun ε : ℝ => ε * w) (𝓝[>] 0) (𝓝[>] 0) := by
    refine tendsto_nhdsWithin_iff.2 ⟨?_, ?_⟩
    · have : Tendsto (fun ε : ℝ => ε * w) (𝓝 0) (𝓝 (0 * w)) := tendsto_id.mul_const w
      rw [zero_mul] at this
      exact this.mono_left nhdsWithin_le_nhds
    · filter_upwards [self_mem_nhdsWithin] with ε hε
      exact mul_pos hε hpos
  rintro s (rfl | rfl)
  · refine ⟨fun ε E => ε * b0.ics * voigtDensity b0.er (d / Real.sqrt 2) (ε * w / 2) E, ?_, ?_⟩
    · intro ε hε
      have hr0 := resonance_scale hε.ne' hb0
      have hbuild : mkVoigt k init (inter.scaleWidths ε) amu T final =
          .ok { b0 with ics := ε * b0.ics, dist := (mkPV b0.er (ε * w) d).toSemiDist, params := [] } := by
        simp only [mkVoigt, mkPseudoVoigt, hr0, hwε, getDopplerWidth_ok k ha.ne', Bind.bind, Except.bind, ← hd]
      refine ⟨_, hbuild, rfl, rfl, fun E => ?_⟩
      have hε2 : 0 < ε * w / 2 := by positivity
      rw [voigt_call hbuild ha.ne' (hwε ε) E]
      simp only [← hd]
      rw [voigtProfile, if_neg hs.ne', if_neg (by positivity)]
      simp only [Fl.smul, voigtDensity, Except.ok.injEq, Fl.fin.injEq]
      congr 2
      funext t
      rw [← cauchyPdf_shift b0.er]
      congr 2
      · ring
      · ring
    · intro E
      have h1 : Tendsto (fun ε : ℝ => b0.ics * narrowVoigt b0.er (d / Real.sqrt 2) E (ε * w / 2)) (𝓝[>] 0)
          (𝓝 (b0.ics * normPdf b0.er (d / Real.sqrt 2) E)) := by
        refine Tendsto.const_mul _ ?_
        rw [← narrowVoigt_zero b0.er E]
        refine ((narrowVoigt_continuous b0.er E hs).tendsto 0).comp ?_
        have := (hscale.mono_right nhdsWithin_le_nhds).div_const 2
        rwa [zero_div] at this
      refine h1.congr' ?_
      filter_upwards [self_mem_nhdsWithin] with ε hε
      have hε' : 0 < ε := hε
      rw [hcancel _ _ hε'.ne', narrowVoigt_eq b0.er E _ (by positivity)]
  · refine ⟨fun ε E => ε * b0.ics * (mkPV b0.er (ε * w) d).pdfR E, ?_, ?_⟩
    · intro ε hε
      have hr0 := resonance_scale hε.ne' hb0
      have hbuild : mkPseudoVoigt k init (inter.scaleWidths ε) amu T final =
          .ok { b0 with ics := ε * b0.ics, dist := (mkPV b0.er (ε * w) d).toDist, params := [] } := by
        simp only [mkPseudoVoigt, hr0, hwε, getDopplerWidth_ok k ha.ne', Bind.bind, Except.bind, ← hd]
      have hok : PV.Ok (ε * w) d := ⟨by positivity, hD.le, Or.inl (by positivity)⟩
      exact ⟨_, hbuild, rfl, rfl, pv_sigma hok rfl rfl⟩
    · intro E
      have h1 := ((pv_narrow b0.er E hD).comp hscale).const_mul b0.ics
      refine h1.congr' ?_
      filter_upwards [self_mem_nhdsWithin] with ε hε
      have hε' : 0 < ε := hε
      rw [hcancel _ _ hε'.ne']
      rfl

example : ∃ b, mkGauss exConst exGround exExcited 11 293 none = .ok b ∧ exGround.exc < exExcited.exc ∧ exExcited.width = .ok 4 := by
  obtain ⟨b, hb, -⟩ := exGauss
  exact ⟨b, hb, by norm_num [exGround, exExcited, groundState, state], exExcited_width⟩

end Ries
