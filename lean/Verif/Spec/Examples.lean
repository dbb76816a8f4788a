import Verif.Model.Resonance

/-! # Concrete objects used in the non-vacuity examples -/

namespace Ries

/-- CODATA-like constants. -/
noncomputable def exConst : PhysConst where
  me := 0.511
  alpha := 0.0072973525693
  hbarc := 197.3269804
  u := 931.49410242
  kB := 8.617333262e-5
  me_pos := by norm_num
  alpha_pos := by norm_num
  hbarc_pos := by norm_num
  u_pos := by norm_num
  kB_pos := by norm_num

/-- a 3/2- ground state -/
def exGround : Level := groundState "3/2^-_1" 3 (-1)

/-- a 1/2- state at 2 MeV with two decay channels -/
def exExcited : Level := state "1/2^-_1" 1 (-1) 2 [("3/2^-_1", 1), ("5/2^-_1", 3)]

theorem exExcited_width : exExcited.width = .ok 4 := by
  simp [Level.width, Level.partialWidths, exExcited, state, lookup, pyNumSum, bind, Except.bind, pure,
    Except.pure]
  norm_num

/-- Resonance between these states with an arbitrary distribution of the base class. -/
theorem exResonance : ∃ r, mkResonance exConst exGround exExcited none noRecoil = .ok r ∧ r.er = 2 := by
  simp [mkResonance, statFactor, fdiv, branchingRatio, integratedCS, exGround, exExcited, groundState, state,
    Level.partialWidths, lookup, bind, Except.bind, noRecoil]
  norm_num

theorem exBreitWigner : ∃ r, mkBreitWigner exConst exGround exExcited none = .ok r ∧ r.er = 2 ∧
    r.params = [2, 2] := by
  obtain ⟨r, h, he⟩ := exResonance
  refine ⟨{ r with dist := cauchyDist, params := [r.er, 0.5 * 4] }, ?_, he, ?_⟩
  · simp [mkBreitWigner, h, exExcited_width, bind, Except.bind]
  · simp [he]; norm_num

theorem exGauss : ∃ r, mkGauss exConst exGround exExcited 11 293 none = .ok r ∧ r.er = 2 := by
  obtain ⟨r, h, he⟩ := exResonance
  refine ⟨{ r with dist := normDist, params := [r.er, dopplerWidth exConst 11 293 r.er / Real.sqrt 2] },
    ?_, he⟩
  have hu : exConst.u ≠ 0 := exConst.u_pos.ne'
  simp [mkGauss, h, getDopplerWidth, hu, bind, Except.bind]

end Ries
