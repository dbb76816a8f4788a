import Verif.Props.State
import Verif.Props.Beam
import Verif.Props.Coverage
import Verif.Lemmas.Resonance

/-!
C175: reciprocity. Time reversal relates a reaction that leads from a state `a` to a state `b` through an intermediate state to the
reaction from `b` to `a`: the cross sections times spin weights times squared photon momenta are equal.
-/

namespace Ries

/-! ## Specification -/

/-- `(2 J + 1) E²` for the state that is hit by the photon and the photon energy of the resonance. -/
noncomputable def phaseSpace (init : Level) (r : Reso) : ℝ := ((init.twoJ : ℝ) + 1) * r.er ^ 2

/-! ## Lemmas -/

theorem branchingRatio_some {inter f : Level} {pw : List (String × ℝ)} {b : ℝ} (hpw : inter.widths = some pw)
    (h : branchingRatio inter (some f) = .ok b) : ∃ gf w, lookup f.Jpi pw = .ok gf ∧ inter.width = .ok w ∧ w ≠ 0 ∧ b = gf / w := by
  simp only [branchingRatio, Level.partialWidths, hpw, Bind.bind, Except.bind] at h
  cases hl : lookup f.Jpi pw with
  | error e => simp [hl] at h
  | ok gf =>
    cases hw : inter.width with
    | error e => simp [hl, hw] at h
    | ok w =>
      simp only [hl, hw, fdiv] at h
      by_cases h0 : w = 0
      · simp [h0] at h
      · simp only [h0, if_false, Except.ok.injEq] at h
        exact ⟨gf, w, rfl, rfl, h0, h.symm⟩

/-! ## C175 -/

/-- The reverse reaction can be constructed whenever the reaction can, unless its photon energy is zero or the spin of the state
is `-1/2`. -/
theorem C175_reverse_exists (s : Shape) {k : PhysConst} {a x b : Level} {r : Reso} (h : s.build k a x (some b) = .ok r)
    (hE : s.recoil (x.exc - b.exc) ≠ 0) (hJ : b.twoJ ≠ -1) : ∃ r', s.build k b x (some a) = .ok r' := by
  obtain ⟨h1, h2, h3⟩ := (C24_construction s k a x (some b)).1.1 ⟨r, h⟩
  refine (C24_construction s k b x (some a)).1.2 ⟨h1, ?_, ?_⟩
  · rintro ⟨pw, hpw, hk⟩
    refine h2 ⟨pw, hpw, ?_⟩
    rcases hk with hk | ⟨f, hf, hk⟩
    · exact Or.inr ⟨b, rfl, hk⟩
    · cases hf
      exact Or.inl hk
  · rintro (hz | ⟨-, hw⟩ | hz | hz)
    · exact hE hz
    · exact h3 (Or.inr (Or.inl ⟨by simp, hw⟩))
    · exact hJ hz
    · exact h3 (Or.inr (Or.inr (Or.inr hz)))

/-- C175: for every line shape the energy-integrated cross sections of a reaction and its reverse, times spin weights and squared
photon energies, are equal. -/
theorem C175_integrated (s : Shape) {k : PhysConst} {a x b : Level} {r r' : Reso} (h : s.build k a x (some b) = .ok r)
    (h' : s.build k b x (some a) = .ok r') : phaseSpace a r * r.ics = phaseSpace b r' * r'.ics := by
  obtain ⟨r0, d, ps, hr0, -, rfl⟩ := build_inv h
  obtain ⟨r0', d', ps', hr0', -, rfl⟩ := build_inv h'
  obtain ⟨-, he, hc, hJ, hst, hbr, ⟨pw, g0, hpw, hg0, hics⟩, -, -⟩ := mkResonance_inv hr0
  obtain ⟨-, he', hc', hJ', hst', hbr', ⟨pw', g0', hpw', hg0', hics'⟩, -, -⟩ := mkResonance_inv hr0'
  rw [hpw] at hpw'; cases hpw'
  obtain ⟨gf, w, hgf, hw, hw0, hb⟩ := branchingRatio_some hpw hbr
  obtain ⟨gf', w', hgf', hw', hw0', hb'⟩ := branchingRatio_some hpw hbr'
  rw [hw] at hw'; cases hw'
  rw [hg0] at hgf'; cases hgf'
  rw [hg0'] at hgf; cases hgf
  simp only [phaseSpace]
  rw [hics, hics', hc, hc', hst, hst', hb, hb']
  field_simp

/-- C175 for Breit-Wigner, at every energy: the cross sections at the same distance from the resonance energies. -/
theorem C175_breit_wigner {k : PhysConst} {a x b : Level} {r r' : Reso} {w : ℝ} (h : mkBreitWigner k a x (some b) = .ok r)
    (h' : mkBreitWigner k b x (some a) = .ok r') (hw : x.width = .ok w) (hpos : 0 < w) :
    r'.er = r.er - (b.exc - a.exc) ∧ ∃ σ σ', r.HasSigma σ ∧ r'.HasSigma σ' ∧
      ∀ E, phaseSpace a r * σ E = phaseSpace b r' * σ' (E - (b.exc - a.exc)) := by
  have hrec := C175_integrated .breitWigner h h'
  obtain ⟨r0, w1, hr0, hw1, rfl⟩ := mkBreitWigner_inv h
  obtain ⟨r0', w2, hr0', hw2, rfl⟩ := mkBreitWigner_inv h'
  rw [hw] at hw1 hw2; cases hw1; cases hw2
  have hs : 0 < 0.5 * w := by positivity
  have e1 := (mkResonance_inv hr0).1
  have e2 := (mkResonance_inv hr0').1
  simp only [noRecoil] at e1 e2
  have hs1 := (analytic_cauchy (r := { r0 with dist := cauchyDist, params := [r0.er, 0.5 * w] }) (l := r0.er) (s := 0.5 * w) rfl rfl hs).sigma
  have hs2 := (analytic_cauchy (r := { r0' with dist := cauchyDist, params := [r0'.er, 0.5 * w] }) (l := r0'.er) (s := 0.5 * w) rfl rfl hs).sigma
  refine ⟨by simp only [e1, e2]; ring, _, _, hs1, hs2, fun E => ?_⟩
  have hsh : cauchyPdf r0'.er (0.5 * w) (E - (b.exc - a.exc)) = cauchyPdf r0.er (0.5 * w) E := by
    unfold cauchyPdf
    rw [e1, e2]
    congr 4
    ring
  simp only [hsh]
  rw [← mul_assoc, ← mul_assoc, hrec]

/-- C175 for Gauss, at every energy: the width of the line is proportional to the resonance energy, so that the cross sections are
compared at the same ratio of energy and resonance energy, and the shape brings a further power of the energy. -/
theorem C175_gauss {k : PhysConst} {a x b : Level} {amu T : ℝ} {r r' : Reso} (h : mkGauss k a x amu T (some b) = .ok r)
    (h' : mkGauss k b x amu T (some a) = .ok r') (ha : 0 < amu) (hT : 0 < T) (hE : a.exc < x.exc) (hE' : b.exc < x.exc) :
    ∃ σ σ', r.HasSigma σ ∧ r'.HasSigma σ' ∧
      ∀ y, phaseSpace a r * r.er * σ (r.er * y) = phaseSpace b r' * r'.er * σ' (r'.er * y) := by
  have hrec := C175_integrated (.gauss amu T) h h'
  obtain ⟨r0, hr0, -, rfl⟩ := mkGauss_inv h
  obtain ⟨r0', hr0', -, rfl⟩ := mkGauss_inv h'
  have e1 : 0 < r0.er := by rw [(mkResonance_inv hr0).1]; simp only [noRecoil]; linarith
  have e2 : 0 < r0'.er := by rw [(mkResonance_inv hr0').1]; simp only [noRecoil]; linarith
  have hu := k.u_pos
  have hkB := k.kB_pos
  set q := Real.sqrt (2 * k.kB * 1e-6 * T / (amu * k.u)) with hq
  have hq0 : 0 < q := by positivity
  have d1 : dopplerWidth k amu T r0.er = r0.er * q := rfl
  have d2 : dopplerWidth k amu T r0'.er = r0'.er * q := rfl
  have hs1 := (analytic_norm (r := { r0 with dist := normDist, params := [r0.er, dopplerWidth k amu T r0.er / Real.sqrt 2] })
    (l := r0.er) (s := dopplerWidth k amu T r0.er / Real.sqrt 2) rfl rfl (by rw [d1]; positivity)).sigma
  have hs2 := (analytic_norm (r := { r0' with dist := normDist, params := [r0'.er, dopplerWidth k amu T r0'.er / Real.sqrt 2] })
    (l := r0'.er) (s := dopplerWidth k amu T r0'.er / Real.sqrt 2) rfl rfl (by rw [d2]; positivity)).sigma
  refine ⟨_, _, hs1, hs2, fun y => ?_⟩
  have hsh : ∀ e : ℝ, 0 < e → e * normPdf e (e * q / Real.sqrt 2) (e * y) = normPdf 1 (q / Real.sqrt 2) y := by
    intro e he
    have harg : (e * y - e) / (e * q / Real.sqrt 2) = (y - 1) / (q / Real.sqrt 2) := by
      field_simp
    unfold normPdf
    rw [harg]
    field_simp
  simp only [d1, d2]
  have s1 := hsh _ e1
  have s2 := hsh _ e2
  simp only [phaseSpace] at hrec ⊢
  linear_combination normPdf 1 (q / Real.sqrt 2) y * hrec +
    ((a.twoJ : ℝ) + 1) * r0.er ^ 2 * r0.ics * s1 - ((b.twoJ : ℝ) + 1) * r0'.er ^ 2 * r0'.ics * s2

/-- A state at 2 MeV that decays to the ground state and to a state at 1 MeV, hit in either of them. -/
example : ∃ (a x b : Level) (r r' : Reso) (w : ℝ), mkBreitWigner exConst a x (some b) = .ok r ∧
    mkBreitWigner exConst b x (some a) = .ok r' ∧ x.width = .ok w ∧ 0 < w ∧ a.exc < b.exc ∧ b.exc < x.exc := by
  have hw : exExcited.width = .ok 4 := exExcited_width
  have hb : ∃ r, mkBreitWigner exConst exGround exExcited (some (state "5/2^-_1" 5 (-1) 1 [("3/2^-_1", 1)])) = .ok r := by
    refine (C24_construction .breitWigner _ _ _ _).1.2 ⟨by simp [exExcited, state], ?_, ?_⟩
    · rintro ⟨pw, hpw, hk⟩
      simp only [exExcited, state, Option.some.injEq] at hpw
      subst hpw
      simp [exGround, groundState, state] at hk
    · rintro (hz | ⟨-, hz⟩ | hz | hz)
      · norm_num [Shape.recoil, noRecoil, exExcited, exGround, state, groundState] at hz
      · rw [hw] at hz; norm_num at hz
      · norm_num [exGround, groundState] at hz
      · exact hz
  obtain ⟨r, hr⟩ := hb
  obtain ⟨r', hr'⟩ := C175_reverse_exists .breitWigner hr (by norm_num [Shape.recoil, noRecoil, exExcited, state]) (by norm_num [state])
  exact ⟨_, _, _, r, r', 4, hr, hr', hw, by norm_num, by norm_num [exGround, groundState, state], by norm_num [exExcited, state]⟩

end Ries
