import Verif.Props.State
import Verif.Props.Coverage

/-! # Property C171: states in the wrong order are rejected

`State` documents its `partial_widths` as "partial widths to lower-lying states".  In a level scheme that keeps to
this, the keys of the dictionaries decide the direction of every transition: nothing in the resonance classes compares
two excitation energies. -/

namespace Ries

/-! ## Specification -/

/-- A level scheme as the documentation of `State` describes it (`ries/constituents/state.py:88`): names are used
once, each level with partial widths names only lower-lying levels of the scheme. -/
structure LevelScheme (levels : List Level) : Prop where
  names : ∀ a ∈ levels, ∀ b ∈ levels, a.Jpi = b.Jpi → a = b
  lower : ∀ a ∈ levels, ∀ pw, a.widths = some pw → ∀ key ∈ pw.map Prod.fst,
    ∃ b ∈ levels, b.Jpi = key ∧ b.exc < a.exc

/-! ## C171 -/

/-- C171: whatever is constructed from a level scheme goes up from the initial state to the intermediate state and down
to the final state; for all classes with a natural width or Doppler width, the resonance energy is positive. -/
theorem C171_constructed {levels : List Level} (hs : LevelScheme levels) {s : Shape} {k : PhysConst}
    {init inter : Level} {final : Option Level} {r : Reso} (hinit : init ∈ levels) (hinter : inter ∈ levels)
    (hfinal : ∀ f, final = some f → f ∈ levels) (h : s.build k init inter final = .ok r) :
    init.exc < inter.exc ∧ (∀ f, final = some f → f.exc < inter.exc) ∧
      ((∀ R, s ≠ .box R) → 0 < r.er ∧ r.er = inter.exc - init.exc) := by
  obtain ⟨hw, hk, -⟩ := (C24_construction s k init inter final).1.1 ⟨r, h⟩
  obtain ⟨pw, hpw⟩ := Option.ne_none_iff_exists'.1 hw
  have key : ∀ b ∈ levels, b.Jpi ∈ pw.map Prod.fst → b.exc < inter.exc := by
    intro b hb hm
    obtain ⟨c, hc, hn, hlt⟩ := hs.lower inter hinter pw hpw _ hm
    rwa [← hs.names c hc b hb hn]
  have h1 : init.exc < inter.exc := by
    refine key init hinit ?_
    by_contra hn
    exact hk ⟨pw, hpw, .inl hn⟩
  refine ⟨h1, fun f hf => key f (hfinal f hf) ?_, fun hb => ?_⟩
  · by_contra hn
    exact hk ⟨pw, hpw, .inr ⟨f, hf, hn⟩⟩
  · obtain ⟨r0, d, ps, h0, -, rfl⟩ := build_inv h
    have he := (mkResonance_inv h0).1
    have hr : s.recoil = noRecoil := by
      cases s with
      | box R => exact absurd rfl (hb R)
      | _ => rfl
    rw [hr] at he
    simp only [noRecoil] at he
    simp only [he]
    exact ⟨by linarith, trivial⟩

/-- C171: a pair of states in the wrong order - or the same state twice - is rejected by every class, and unless a
divisor happens to be zero the exception is `AttributeError` (a ground state as intermediate state) or `KeyError`. -/
theorem C171_rejected {levels : List Level} (hs : LevelScheme levels) (s : Shape) (k : PhysConst)
    {init inter : Level} (final : Option Level) (hinit : init ∈ levels) (hinter : inter ∈ levels)
    (hle : inter.exc ≤ init.exc) :
    ∃ e, s.build k init inter final = .error e ∧
      (e = .attributeError ∨ e = .keyError ∨ e = .zeroDivision) ∧
      (e = .attributeError → inter.widths = none) ∧
      (e = .zeroDivision → ZeroDivisor s init inter final) := by
  cases hb : s.build k init inter final with
  | ok r =>
    exfalso
    obtain ⟨hw, hk, -⟩ := (C24_construction s k init inter final).1.1 ⟨r, hb⟩
    obtain ⟨pw, hpw⟩ := Option.ne_none_iff_exists'.1 hw
    have hm : init.Jpi ∈ pw.map Prod.fst := by
      by_contra hn
      exact hk ⟨pw, hpw, .inl hn⟩
    obtain ⟨c, hc, hn, hlt⟩ := hs.lower inter hinter pw hpw _ hm
    rw [hs.names c hc init hinit hn] at hlt
    linarith
  | error e =>
    refine ⟨e, rfl, ?_⟩
    rcases (C24_construction s k init inter final).2 e hb with ⟨rfl, h⟩ | ⟨rfl, h⟩ | ⟨rfl, h⟩
    · exact ⟨.inl rfl, fun _ => h, fun h => (by cases h)⟩
    · exact ⟨.inr (.inl rfl), fun h => (by cases h), fun h => (by cases h)⟩
    · exact ⟨.inr (.inr rfl), fun h => (by cases h), fun _ => h⟩

/-- C171: of two levels of a scheme at most one order is accepted, whatever classes, parameters and final states are
used for the two attempts. -/
theorem C171_one_order {levels : List Level} (hs : LevelScheme levels) (s t : Shape) (k : PhysConst) {a b : Level}
    (f g : Option Level) (ha : a ∈ levels) (hb : b ∈ levels) {r : Reso} (h : s.build k a b f = .ok r) :
    ∃ e, t.build k b a g = .error e := by
  obtain ⟨hw, hk, -⟩ := (C24_construction s k a b f).1.1 ⟨r, h⟩
  obtain ⟨pw, hpw⟩ := Option.ne_none_iff_exists'.1 hw
  have hm : a.Jpi ∈ pw.map Prod.fst := by
    by_contra hn
    exact hk ⟨pw, hpw, .inl hn⟩
  obtain ⟨c, hc, hn, hlt⟩ := hs.lower b hb pw hpw _ hm
  rw [hs.names c hc a ha hn] at hlt
  obtain ⟨e, he, -⟩ := C171_rejected hs t k g hb ha hlt.le
  exact ⟨e, he⟩

/-- C171: a dictionary that names a higher-lying state is not noticed: without the documented ordering, a resonance at
a negative energy is constructed and evaluates to positive cross sections. -/
theorem C171_ordering_needed : ∃ (init inter : Level) (r : Reso),
    mkBreitWigner exConst init inter none = .ok r ∧ inter.exc < init.exc ∧ r.er < 0 ∧
      ∃ σ, r.HasSigma σ ∧ ∀ E, 0 < σ E := by
  let hi : Level := state "3/2^-_1" 3 (-1) 4 []
  obtain ⟨r, h, he⟩ : ∃ r, mkResonance exConst hi exMid none noRecoil = .ok r ∧ r.er = -2 ∧ 0 < r.ics := by
    have := Real.pi_pos
    simp [mkResonance, statFactor, fdiv, branchingRatio, integratedCS, hi, exMid, exConst, state,
      Level.partialWidths, lookup, Bind.bind, Except.bind, noRecoil]
    norm_num
    positivity
  have hw : (0 : ℝ) < 0.5 * 1e-5 := by norm_num
  refine ⟨hi, exMid, { r with dist := cauchyDist, params := [r.er, 0.5 * 1e-5] }, ?_, ?_, ?_,
    fun E => r.ics * cauchyPdf r.er (0.5 * 1e-5) E, ?_, ?_⟩
  · simp [mkBreitWigner, h, exMid_width, Bind.bind, Except.bind]
  · simp [hi, exMid, state]; norm_num
  · simp [he.1]
  · exact (analytic_cauchy (r := { r with dist := cauchyDist, params := [r.er, 0.5 * 1e-5] }) rfl rfl hw).sigma
  · intro E
    have := Real.pi_pos
    have := he.2
    unfold cauchyPdf
    positivity

/-- a scheme of three levels in which both orders of the two excited states can be asked for -/
noncomputable def exScheme : List Level :=
  [exGround, exMid, state "5/2^-_1" 5 (-1) 4 [("3/2^-_1", 1), ("1/2^-_1", 2)]]

theorem exScheme_scheme : LevelScheme exScheme where
  names := by
    simp [exScheme, exGround, exMid, state, groundState]
  lower := by
    simp [exScheme, exGround, exMid, state, groundState]
    norm_num
    rintro key x (⟨rfl, -⟩ | ⟨rfl, -⟩)
    · exact .inl rfl
    · exact .inr rfl

/-- the theorems apply: one order of the excited states is accepted, the other is a `KeyError` -/
example : (∃ r, Shape.breitWigner.build exConst exMid (state "5/2^-_1" 5 (-1) 4 [("3/2^-_1", 1), ("1/2^-_1", 2)]) none
      = .ok r ∧ 0 < r.er) ∧
    ∃ e, (Shape.voigt 11 293).build exConst (state "5/2^-_1" 5 (-1) 4 [("3/2^-_1", 1), ("1/2^-_1", 2)]) exMid none
      = .error e := by
  have hm : exMid ∈ exScheme := by simp [exScheme]
  have hu : state "5/2^-_1" 5 (-1) 4 [("3/2^-_1", 1), ("1/2^-_1", 2)] ∈ exScheme := by simp [exScheme]
  obtain ⟨r, hr⟩ := (C24_construction .breitWigner exConst exMid
      (state "5/2^-_1" 5 (-1) 4 [("3/2^-_1", 1), ("1/2^-_1", 2)]) none).1.2 (by
    refine ⟨by simp [state], ?_, ?_⟩
    · rintro ⟨pw, hpw, h | ⟨f, hf, -⟩⟩
      · simp only [state, Option.some.injEq] at hpw
        subst hpw
        simp [exMid, state] at h
      · cases hf
    · rintro (h | h | h | h)
      · simp [Shape.recoil, noRecoil, exMid, state] at h; norm_num at h
      · exact h.1 rfl
      · simp [exMid, state] at h
      · exact h)
  exact ⟨⟨r, hr, ((C171_constructed exScheme_scheme hm hu (by simp) hr).2.2 (by simp)).1⟩,
    C171_one_order exScheme_scheme .breitWigner (.voigt 11 293) exConst none none hm hu hr⟩

end Ries
