import Verif.Lemmas.SelfAbsorption
import Verif.Model.Notebooks
import Verif.Props.VoigtLimits
import Verif.Props.Coverage
import Verif.Spec.Examples

/-! # Properties C105-C107: self absorption, molar mass, dependence on the width -/

open MeasureTheory Set Filter

namespace Ries

/-- Number of photons per unit of the incident flux density that are absorbed in a scatterer of the areal density `ρS` that is placed
behind an absorber with the areal density `ρA` of the same nuclei, with energies from `a` to `b`. -/
noncomputable def absorbed (σ : ℝ → ℝ) (a b ρA ρS : ℝ) : ℝ :=
  ∫ E in a..b, ∫ ρ in (0 : ℝ)..ρS, σ E * Real.exp (-σ E * (ρA + ρ))

theorem absorbed_eq (σ : ℝ → ℝ) (a b ρA ρS : ℝ) :
    absorbed σ a b ρA ρS = ∫ E in a..b, Real.exp (-σ E * ρA) * scat (σ E) ρS := by
  simp only [absorbed, absorbed_inner, scat]

theorem rel_eq {r : Reso} {σ : ℝ → ℝ} (h : r.HasSigma σ) (e : ℝ) : r.rel e = σ (e + r.er) := by
  have h1 : r.call e false = r.call (e + r.er) true := by simp [Reso.call]
  rw [Reso.rel, h1, h (e + r.er)]

/-- C105: with energy limits around the resonance, the self absorption is the decrease of the number of photons absorbed in
the scatterer that the absorber causes. It is 0 without an absorber, strictly increases with the absorber, stays
below 1 and tends to 1; it does not increase with the scatterer. -/
theorem C105_self_absorption {r : Reso} {σ : ℝ → ℝ} (hσ : r.HasSigma σ) (hc : Continuous σ) (hp : ∀ E, 0 < σ E) {lo hi : ℝ}
    (hlt : lo < hi) : ∃ R : ℝ → ℝ → ℝ, (∀ ρA ρS, 0 < ρS → selfAbsorption r ρA ρS (lo - r.er) (hi - r.er) = .ok (R ρA ρS)) ∧
      ∀ ρS, 0 < ρS → (∀ ρA, R ρA ρS = 1 - absorbed σ lo hi ρA ρS / absorbed σ lo hi 0 ρS) ∧ R 0 ρS = 0 ∧
        StrictMono (fun ρA => R ρA ρS) ∧ (∀ ρA, R ρA ρS < 1) ∧ Tendsto (fun ρA => R ρA ρS) atTop (nhds 1) ∧
        ∀ ρA, 0 ≤ ρA → ∀ ρS', ρS ≤ ρS' → R ρA ρS' ≤ R ρA ρS := by
  have z : ∀ ρS, absorbed σ lo hi 0 ρS = ∫ E in lo..hi, scat (σ E) ρS := fun ρS => by rw [absorbed_eq]; simp
  have hd : ∀ ρS, 0 < ρS → 0 < absorbed σ lo hi 0 ρS := fun ρS hS => by rw [z]; exact scat_integral_pos hc hp hlt hS
  refine ⟨fun ρA ρS => 1 - absorbed σ lo hi ρA ρS / absorbed σ lo hi 0 ρS, fun ρA ρS hS => ?_, fun ρS hS =>
    ⟨fun _ => rfl, ?_, ?_, fun ρA => ?_, ?_, ?_⟩⟩
  · have e1 : (∫ e in (lo - r.er)..(hi - r.er), fluxDensity r e ρA * (1 - Real.exp (-(r.rel e) * ρS))) = absorbed σ lo hi ρA ρS := by
      simp only [fluxDensity, rel_eq hσ]
      rw [absorbed_eq, intervalIntegral.integral_comp_add_right (fun E => Real.exp (-σ E * ρA) * (1 - Real.exp (-σ E * ρS)))]
      simp [scat]
    have e2 : (∫ e in (lo - r.er)..(hi - r.er), 1 - Real.exp (-(r.rel e) * ρS)) = absorbed σ lo hi 0 ρS := by
      simp only [rel_eq hσ]
      rw [z, intervalIntegral.integral_comp_add_right (fun E => 1 - Real.exp (-σ E * ρS))]
      simp [scat]
    simp only [selfAbsorption, e1, e2]
    exact if_neg (hd ρS hS).ne'
  · simp [(hd ρS hS).ne']
  · intro x y hxy
    have := num_lt hc hp hlt hS hxy
    rw [← absorbed_eq, ← absorbed_eq] at this
    have := div_lt_div_of_pos_right this (hd ρS hS)
    beta_reduce
    linarith
  · have : 0 < absorbed σ lo hi ρA ρS := by
      rw [absorbed_eq]
      exact intervalIntegral.intervalIntegral_pos_of_pos (Continuous.intervalIntegrable (by unfold scat; fun_prop) _ _)
        (fun E => mul_pos (Real.exp_pos _) (scat_pos (hp E) hS)) hlt
    have := div_pos this (hd ρS hS)
    linarith
  · have h1 := num_tendsto hc hp hlt hS
    simp only [← absorbed_eq] at h1
    simpa using (h1.div_const (absorbed σ lo hi 0 ρS)).const_sub 1
  · intro ρA hA ρS' hS'
    have h1 := num_scatterer hc hp hlt hS hS' hA
    rw [← absorbed_eq, ← absorbed_eq, ← z, ← z] at h1
    beta_reduce
    linarith

theorem li6_width (Γ : ℝ) : (li6Excited Γ).width = .ok Γ := by
  simp [Level.width, Level.partialWidths, li6Excited, state, lookup, pyNumSum, Bind.bind, Except.bind, Pure.pure, Except.pure]

theorem li6_resonance (k : PhysConst) {Γ : ℝ} (hΓ : 0 < Γ) :
    ∃ r, mkResonance k li6Ground (li6Excited Γ) none noRecoil = .ok r ∧ r.er = 3.56288 ∧ 0 < r.ics := by
  have h := k.hbarc_pos
  simp [mkResonance, statFactor, fdiv, branchingRatio, integratedCS, li6Ground, li6Excited, groundState, state,
    Level.partialWidths, lookup, Bind.bind, Except.bind, noRecoil]
  norm_num
  positivity

theorem li6_voigt (k : PhysConst) {Γ amu : ℝ} (hΓ : 0 < Γ) (ha : 0 < amu) (T : ℝ) :
    ∃ r, mkVoigt k li6Ground (li6Excited Γ) amu T none = .ok r ∧ r.er = 3.56288 ∧ 0 < r.ics := by
  obtain ⟨r, h, he, hi⟩ := li6_resonance k hΓ
  refine ⟨{ r with dist := (mkPV r.er Γ (dopplerWidth k amu T r.er)).toSemiDist, params := [] }, ?_, he, hi⟩
  simp [mkVoigt, mkPseudoVoigt, h, li6_width, getDopplerWidth_ok k ha.ne', Bind.bind, Except.bind]

theorem li6_exc (Γ : ℝ) : li6Ground.exc < (li6Excited Γ).exc := by
  norm_num [li6Ground, li6Excited, groundState, state]

/-- the data of the notebook, with rounded masses -/
noncomputable def exLi6 : Li6Data := ⟨6.015, 7.016, 12.011, 15.999, 1.6605e-27, 0.95⟩

/-- the masses are positive, and the mean enrichment is between 0 and 1 -/
structure Li6Data.Ok (D : Li6Data) : Prop where
  m6 : 0 < D.m6
  m7 : 0 < D.m7
  mC : 0 ≤ D.mC
  mO : 0 ≤ D.mO
  u : 0 < D.u
  e0 : 0 ≤ D.meanEnrichment
  e1 : D.meanEnrichment ≤ 1

theorem Li6Data.Ok.molar_pos {D : Li6Data} (h : D.Ok) (x : ℝ) : 0 < D.molarMass x := by
  have h1 := h.m6
  have h2 := h.m7
  have h3 := h.mC
  have h4 := h.mO
  have : 0 < D.meanEnrichment * D.m6 + (1 - D.meanEnrichment) * D.m7 := by
    rcases h.e0.eq_or_lt with e | e
    · rw [← e]; linarith
    · have := mul_pos e h1
      have := mul_nonneg (sub_nonneg.2 h.e1) h2.le
      linarith
  unfold Li6Data.molarMass
  linarith

theorem areal_linear (D : Li6Data) (m d x : ℝ) : D.arealDensity m d x = D.arealDensity 1 d x * m := by
  simp only [Li6Data.arealDensity]; ring

theorem Li6Data.Ok.areal_pos {D : Li6Data} (h : D.Ok) {d x : ℝ} (hd : 0 < d) (hx : 0 < x) : 0 < D.arealDensity 1 d x := by
  have := h.molar_pos x
  have := h.u
  have := Real.pi_pos
  unfold Li6Data.arealDensity
  positivity

/-- C105 for `R(Gamma, absorber_mass, scatterer_mass, ...)` of the notebook: a number for all nonnegative absorber masses and positive
scatterer masses; 0 without an absorber, strictly increasing with the mass of the absorber, below 1, tending to 1, and not
increasing with the mass of the scatterer. The coverage must be larger than the error of the numerical inversion. -/
theorem C105_li6 (k : PhysConst) {D : Li6Data} (hD : D.Ok) {Γ diameter enrichment T cov : ℝ} (hΓ : 0 < Γ) (hd : 0 < diameter)
    (hx : 0 < enrichment) (hT : 0 ≤ T) (h0 : 0 < cov) (h1 : cov < 1)
    (hc : 3.8e-8 < cov * max Γ (2 * Real.sqrt (Real.log 2) * dopplerWidth k D.m6 T 3.56288)) :
    ∃ R : ℝ → ℝ → ℝ, (∀ mA mS, 0 < mS → li6R k D Γ mA mS diameter enrichment T cov = .ok (R mA mS)) ∧
      ∀ mS, 0 < mS → R 0 mS = 0 ∧ StrictMono (fun mA => R mA mS) ∧ (∀ mA, R mA mS < 1) ∧
        Tendsto (fun mA => R mA mS) atTop (nhds 1) ∧ ∀ mA, 0 ≤ mA → ∀ mS', mS ≤ mS' → R mA mS' ≤ R mA mS := by
  obtain ⟨r, hr, her, hics⟩ := li6_voigt k hΓ hD.m6 T
  have hexc := li6_exc Γ
  have hg : 0 < Γ / 2 := by linarith
  have hsig := voigt_sigma hr hD.m6 hT hexc (li6_width Γ) hΓ
  have hv : IsVoigtOf r Γ (dopplerWidth k D.m6 T r.er) := ⟨k, _, _, _, T, none, hr, hD.m6, hT, hexc, li6_width Γ,
    getDopplerWidth_ok k hD.m6.ne' T r.er, hΓ.le, Or.inl hΓ⟩
  obtain ⟨hok, hdist, hpar⟩ := hv.inv
  obtain ⟨ci, lo, hi, hci, hlo, hhi, -, hlt⟩ := pv_coverage_lt hok (by rw [hdist]; rfl) (by rw [hdist]; rfl) hpar h0 h1
    (by rw [her]; exact hc)
  obtain ⟨R, hR, hprop⟩ := C105_self_absorption hsig
    (continuous_const.mul (coldVoigt_continuous_energy r.er _ hg)) (fun E => mul_pos hics (coldVoigt_pos _ _ _ hg)) hlt
  have hq := hD.areal_pos hd hx
  have hee : (li6Excited Γ).exc = r.er := her.symm
  set q := D.arealDensity 1 diameter enrichment with hqd
  refine ⟨fun mA mS => R (q * mA) (q * mS), fun mA mS hS => ?_, fun mS hS => ?_⟩
  · simp only [li6R, hr, hci, Bind.bind, Except.bind, hlo, hhi, hee]
    rw [areal_linear D mA, areal_linear D mS, ← hqd]
    exact hR _ _ (mul_pos hq hS)
  · obtain ⟨-, p0, p1, p2, p3, p4⟩ := hprop (q * mS) (mul_pos hq hS)
    refine ⟨by beta_reduce; rw [mul_zero]; exact p0, fun x y hxy => p1 (mul_lt_mul_of_pos_left hxy hq), fun mA => p2 _,
      p3.comp (tendsto_id.const_mul_atTop hq), fun mA hA mS' hS' => p4 _ (mul_nonneg hq.le hA) _ (mul_le_mul_of_nonneg_left hS' hq.le)⟩

/-- the parameters of the notebook: a width of 8.19 eV, effective temperature 400 K, coverage 0.9 -/
example : exLi6.Ok ∧ (3.8e-8 : ℝ) < 0.9 * max 8.19e-6 (2 * Real.sqrt (Real.log 2) * dopplerWidth exConst exLi6.m6 400 3.56288) := by
  refine ⟨⟨by norm_num [exLi6], by norm_num [exLi6], by norm_num [exLi6], by norm_num [exLi6], by norm_num [exLi6],
    by norm_num [exLi6], by norm_num [exLi6]⟩, lt_of_lt_of_le ?_ (mul_le_mul_of_nonneg_left (le_max_left _ _) (by norm_num))⟩
  norm_num

/-! ## C106 -/

/-- The molar mass of lithium carbonate, as the docstring of `molar_mass` defines it, for the fraction `x` of 6Li. -/
def carbonateMass (D : Li6Data) (x : ℝ) : ℝ := 2 * (x * D.m6 + (1 - x) * D.m7) + D.mC + 3 * D.mO

/-- C106 is false: `molar_mass(enrichment)` returns the value for the mean enrichment, whatever its argument. -/
theorem C106_refuted (D : Li6Data) (hne : D.m6 ≠ D.m7) :
    (∀ x y, D.molarMass x = D.molarMass y) ∧ ∀ x, x ≠ D.meanEnrichment → D.molarMass x ≠ carbonateMass D x := by
  refine ⟨fun _ _ => rfl, fun x hx h => ?_⟩
  simp only [Li6Data.molarMass, carbonateMass] at h
  have : (x - D.meanEnrichment) * (D.m6 - D.m7) = 0 := by linarith
  rcases mul_eq_zero.1 this with h | h
  · exact hx (by linarith)
  · exact hne (by linarith)

example : exLi6.m6 ≠ exLi6.m7 ∧ (0.9 : ℝ) ≠ exLi6.meanEnrichment := by constructor <;> norm_num [exLi6]

/-- C106, what holds: at the mean enrichment, with which the notebook calls it, the molar mass is right, and the areal density of the
disk is the number of lithium nuclei of the enriched isotope per area: density times molar mass times area
is twice the enriched fraction of the mass. Elsewhere the error is twice the difference of the enrichments times that of the
masses. -/
theorem C106_partial (D : Li6Data) : D.molarMass D.meanEnrichment = carbonateMass D D.meanEnrichment ∧
    (∀ x, |D.molarMass x - carbonateMass D x| = 2 * |x - D.meanEnrichment| * |D.m6 - D.m7|) ∧
    (D.Ok → ∀ mass diameter, 0 < diameter → D.arealDensity mass diameter D.meanEnrichment *
      (Real.pi * (diameter * 1e15 / 2) ^ 2) * (carbonateMass D D.meanEnrichment * D.u) = 2 * D.meanEnrichment * mass) := by
  refine ⟨rfl, fun x => ?_, fun h mass diameter hd => ?_⟩
  · have e : D.molarMass x - carbonateMass D x = -(2 * ((x - D.meanEnrichment) * (D.m6 - D.m7))) := by
      simp only [Li6Data.molarMass, carbonateMass]; ring
    rw [e, abs_neg, abs_mul, abs_mul, abs_two, mul_assoc]
  · have h1 := h.molar_pos D.meanEnrichment
    have h2 := h.u
    have h3 := Real.pi_pos
    have e : carbonateMass D D.meanEnrichment = D.molarMass D.meanEnrichment := rfl
    rw [e, Li6Data.arealDensity]
    generalize D.molarMass D.meanEnrichment = M at *
    field_simp
    ring

/-! ## C107 -/

theorem cauchy_scaled_lt (er x : ℝ) {g g' : ℝ} (hg : 0 < g) (hgg : g < g') (hx : x ≠ er) :
    g * cauchyPdf er g x < g' * cauchyPdf er g' x := by
  have hg' := hg.trans hgg
  have h0 : 0 < (x - er) ^ 2 := by have := sub_ne_zero.2 hx; positivity
  have e : ∀ g, 0 < g → g * cauchyPdf er g x = g ^ 2 / (Real.pi * ((x - er) ^ 2 + g ^ 2)) := by
    intro g hg
    have := Real.pi_pos
    unfold cauchyPdf
    field_simp
    ring
  rw [e g hg, e g' hg', div_lt_div_iff₀ (by have := Real.pi_pos; positivity) (by have := Real.pi_pos; positivity)]
  have h1 : g ^ 2 < g' ^ 2 := by nlinarith
  have := mul_lt_mul_of_pos_left (mul_lt_mul_of_pos_right h1 h0) Real.pi_pos
  nlinarith

theorem cauchy_scaled_mid (er : ℝ) {g : ℝ} (hg : 0 < g) : g * cauchyPdf er g er = 1 / Real.pi := by
  have := Real.pi_pos
  unfold cauchyPdf
  field_simp
  ring

theorem coldVoigt_scaled_lt (er E : ℝ) {s g g' : ℝ} (hs : 0 < s) (hg : 0 < g) (hgg : g < g') :
    g * coldVoigt er g E s < g' * coldVoigt er g' E s := by
  have hg' := hg.trans hgg
  simp only [coldVoigt, ← integral_const_mul]
  have hle : ∀ t, g * (normPdf 0 1 t * cauchyPdf er g (E - s * t)) ≤ g' * (normPdf 0 1 t * cauchyPdf er g' (E - s * t)) ∧
      (E - s * t ≠ er → g * (normPdf 0 1 t * cauchyPdf er g (E - s * t)) < g' * (normPdf 0 1 t * cauchyPdf er g' (E - s * t))) := by
    intro t
    have hn := normPdf_pos one_pos 0 t
    have hlt : E - s * t ≠ er → g * (normPdf 0 1 t * cauchyPdf er g (E - s * t)) < g' * (normPdf 0 1 t * cauchyPdf er g' (E - s * t)) := by
      intro h
      have := mul_lt_mul_of_pos_left (cauchy_scaled_lt er (E - s * t) hg hgg h) hn
      linarith
    refine ⟨?_, hlt⟩
    by_cases h : E - s * t = er
    · rw [h]
      have h1 := cauchy_scaled_mid er hg
      have h2 := cauchy_scaled_mid er hg'
      refine le_of_eq ?_
      calc _ = normPdf 0 1 t * (g * cauchyPdf er g er) := by ring
        _ = normPdf 0 1 t * (g' * cauchyPdf er g' er) := by rw [h1, h2]
        _ = _ := by ring
    · exact (hlt h).le
  have hI := (coldVoigt_integrable er E s hg).const_mul g
  have hI' := (coldVoigt_integrable er E s hg').const_mul g'
  rw [← sub_pos, ← integral_sub hI' hI, integral_pos_iff_support_of_nonneg (fun t => sub_nonneg.2 (hle t).1) (hI'.sub hI),
    pos_iff_ne_zero]
  intro h0
  have hsub : {(E - er) / s}ᶜ ⊆ Function.support fun t =>
      g' * (normPdf 0 1 t * cauchyPdf er g' (E - s * t)) - g * (normPdf 0 1 t * cauchyPdf er g (E - s * t)) := by
    intro t ht
    refine (sub_pos.2 ((hle t).2 fun h => ht ?_)).ne'
    rw [mem_singleton_iff, eq_div_iff hs.ne']
    linarith
  have hnull := measure_mono_null hsub h0
  have huniv : (volume : Measure ℝ) univ ≤ 0 := by
    rw [← compl_union_self {(E - er) / s}]
    refine (measure_union_le _ _).trans ?_
    rw [hnull]; simp
  simp at huniv

/-- C107: broader levels absorb more at every energy. If all partial widths of the intermediate state are multiplied by the same
factor, a Voigt cross section at a positive temperature strictly increases at every energy; a Breit-Wigner cross section strictly
increases at every energy except the resonance energy, where it does not change; and a Gauss
cross section is proportional to the factor. -/
theorem C107_width {k : PhysConst} {init inter : Level} {final : Option Level} {amu T w : ℝ} {b : Reso}
    (hb : mkBreitWigner k init inter final = .ok b) (ha : 0 < amu) (hT : 0 < T)
    (hE : init.exc < inter.exc) (hw : inter.width = .ok w) (hpos : 0 < w) (hI : 0 < b.ics) :
    ∃ σv σb σg : ℝ → ℝ → ℝ, (∀ ε, 0 < ε →
        (∃ r, mkVoigt k init (inter.scaleWidths ε) amu T final = .ok r ∧ r.HasSigma (σv ε)) ∧
        (∃ r, mkBreitWigner k init (inter.scaleWidths ε) final = .ok r ∧ r.HasSigma (σb ε)) ∧
        ∃ r, mkGauss k init (inter.scaleWidths ε) amu T final = .ok r ∧ r.HasSigma (σg ε)) ∧
      (∀ E, StrictMonoOn (fun ε => σv ε E) (Ioi 0)) ∧
      (∀ E, E ≠ b.er → StrictMonoOn (fun ε => σb ε E) (Ioi 0)) ∧ (∀ ε, 0 < ε → σb ε b.er = σb 1 b.er) ∧
      ∀ ε, 0 < ε → ∀ E, σg ε E = ε * σg 1 E := by
  obtain ⟨b0, w', hb0, hw', rfl⟩ := mkBreitWigner_inv hb
  have her := (mkResonance_inv hb0).1
  have hpe : 0 < b0.er := by rw [her]; unfold noRecoil; linarith
  have hD := dopplerWidth_pos k ha hT hpe
  have hwε : ∀ ε, (inter.scaleWidths ε).width = .ok (ε * w) := fun ε => by rw [width_scale, hw]; rfl
  have hI0 : 0 < b0.ics := hI
  set d := dopplerWidth k amu T b0.er with hd
  have hs : 0 < d / Real.sqrt 2 := by positivity
  have cancel : ∀ (ε y : ℝ), ε * b0.ics * y = 2 * b0.ics / w * (ε * w / 2 * y) := fun ε y => by field_simp
  have hk : 0 < 2 * b0.ics / w := by positivity
  refine ⟨fun ε E => ε * b0.ics * coldVoigt b0.er (ε * w / 2) E (d / Real.sqrt 2), fun ε E => ε * b0.ics * cauchyPdf b0.er (ε * w / 2) E,
    fun ε E => ε * b0.ics * normPdf b0.er (d / Real.sqrt 2) E, fun ε hε => ⟨?_, ?_, ?_⟩, ?_, ?_, ?_, ?_⟩
  · have hr0 := resonance_scale hε.ne' hb0
    have hbuild : mkVoigt k init (inter.scaleWidths ε) amu T final =
        .ok { b0 with ics := ε * b0.ics, dist := (mkPV b0.er (ε * w) d).toSemiDist, params := [] } := by
      simp only [mkVoigt, mkPseudoVoigt, hr0, hwε, getDopplerWidth_ok k ha.ne', Bind.bind, Except.bind, ← hd]
    exact ⟨_, hbuild, voigt_sigma hbuild ha hT.le hE (hwε ε) (by positivity)⟩
  · have hr0 := resonance_scale hε.ne' hb0
    refine ⟨{ b0 with ics := ε * b0.ics, dist := cauchyDist, params := [b0.er, 0.5 * (ε * w)] }, ?_, ?_⟩
    · simp only [mkBreitWigner, hr0, hwε, Bind.bind, Except.bind]
    · have h := (analytic_cauchy (r := { b0 with ics := ε * b0.ics, dist := cauchyDist, params := [b0.er, 0.5 * (ε * w)] })
        rfl rfl (by positivity)).sigma
      have e : 0.5 * (ε * w) = ε * w / 2 := by ring
      simp only [e] at h ⊢
      exact h
  · have hr0 := resonance_scale hε.ne' hb0
    refine ⟨{ b0 with ics := ε * b0.ics, dist := normDist, params := [b0.er, d / Real.sqrt 2] }, ?_, ?_⟩
    · simp only [mkGauss, hr0, getDopplerWidth_ok k ha.ne', Bind.bind, Except.bind, ← hd]
    · exact (analytic_norm (r := { b0 with ics := ε * b0.ics, dist := normDist, params := [b0.er, d / Real.sqrt 2] }) rfl rfl hs).sigma
  · intro E ε hε ε' hε' hlt
    have hε : 0 < ε := hε
    beta_reduce
    rw [cancel, cancel]
    exact mul_lt_mul_of_pos_left (coldVoigt_scaled_lt b0.er E hs (by positivity) (by nlinarith)) hk
  · intro E hne ε hε ε' hε' hlt
    have hε : 0 < ε := hε
    beta_reduce
    rw [cancel, cancel]
    exact mul_lt_mul_of_pos_left (cauchy_scaled_lt b0.er E (by positivity) (by nlinarith) hne) hk
  · intro ε hε
    beta_reduce
    rw [cancel, cancel 1]
    congr 1
    exact (cauchy_scaled_mid b0.er (g := ε * w / 2) (by positivity)).trans (cauchy_scaled_mid b0.er (by positivity)).symm
  · intro ε hε E
    ring

example : ∃ b, mkBreitWigner exConst exGround exMid none = .ok b ∧ exGround.exc < exMid.exc ∧ exMid.width = .ok 1e-5 ∧ 0 < b.ics := by
  obtain ⟨r, h, he, hi⟩ := exMid_resonance
  refine ⟨{ r with dist := cauchyDist, params := [r.er, 0.5 * 1e-5] }, ?_, ?_, exMid_width, hi⟩
  · simp [mkBreitWigner, h, exMid_width, Bind.bind, Except.bind]
  · norm_num [exGround, exMid, groundState, state]

end Ries
