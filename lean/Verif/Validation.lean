import Verif.Props.XrmacModule
import Verif.Props.Xrmac
import Verif.Props.DebyeExpansion
import Verif.Props.KleinNishina
import Verif.Props.Windows
import Verif.Model.Darboux
import Verif.Model.QuadPartition
import Verif.Model.Resonance
import Mathlib.Analysis.Real.Pi.Bounds

/-! # The assertions of the project's own tests, on the model

These examples check the model against the expectations in `/repo/tests`: they are tests of the model, not
properties. Assertions with a tolerance are exact equalities here where exact arithmetic gives equality. -/

namespace Ries.Validation

/-! ## Nuclear levels of `tests/boron.py` -/

/-- `tests/boron.py:39` -/
noncomputable def ground : Level := groundState "3/2^-_1" 3 (-1)
/-- `tests/boron.py:48-54` -/
noncomputable def e52 : Level := state "5/2^-_1" 5 (-1) 4.44498 [("3/2^-_1", 0.55e-6)]
/-- `tests/boron.py:41-47` -/
noncomputable def e12 : Level := state "1/2^-_1" 1 (-1) 2.124693 [("3/2^-_1", 0.117e-6)]
/-- `tests/boron.py:55-61` -/
noncomputable def e32 : Level :=
  state "3/2^-_2" 3 (-1) 5.02030 [("3/2^-_1", 0.856 * 1.97e-6), ("1/2^-_1", 0.144 * 1.97e-6)]

/-! ## `tests/test_state.py` -/

theorem names_ne : ("3/2^-_1" : String) ≠ "1/2^-_1" := by decide

theorem e32_width : e32.width = .ok 1.97e-6 := by
  norm_num [names_ne, Level.width, Level.partialWidths, e32, state, lookup, pyNumSum, bind, Except.bind, pure, Except.pure]

example : ground.exc = 0 ∧ e32.width = .ok 1.97e-6 ∧
    (do let pw ← e32.partialWidths; lookup "3/2^-_1" pw) = .ok (0.856 * 1.97e-6) := by
  refine ⟨rfl, e32_width, ?_⟩
  simp [Level.partialWidths, e32, state, lookup, bind, Except.bind]

/-! ## `tests/test_cross_section.py` -/

/-- `test_abstract` -/
example : (Obj.leaf abstractLeaf).call 1 = .error .notImplemented ∧
    (Obj.leaf abstractLeaf).probGrid (.lims 0 1) 10 = .error .notImplemented := by
  constructor
  · simp [Obj.call, abstractLeaf, Except.map]
  · simp [Obj.probGrid, abstractLeaf]

theorem linspace3 (a b : ℝ) : linspace (.fin a) (.fin b) 3 = .ok [.fin a, .fin ((a + b) / 2), .fin b] := by
  simp [linspace, List.range_succ, Fl.add, Fl.smul]
  norm_num
  ring

theorem grid3 : linspace (.fin 0) (.fin 1) 3 = .ok [.fin 0, .fin 0.5, .fin 1] := by
  rw [linspace3]
  norm_num

theorem unique3 : npUnique [.fin 0, .fin 0.5, .fin 1, .fin 0, .fin 0.5, .fin 1] =
    [.fin 0, .fin 0.5, .fin 1] := by
  unfold npUnique
  have : ([.fin 0, .fin 0.5, .fin 1, .fin 0, .fin 0.5, .fin 1] : List Fl).dedup =
      [.fin 0, .fin 0.5, .fin 1] := by
    norm_num [List.dedup_cons_of_mem, List.dedup_cons_of_notMem]
  rw [this]
  apply List.Pairwise.insertionSort_eq
  norm_num

/-- `test_grid` -/
example : energyGrid (.lims 0 1) 3 = .ok [.fin 0, .fin 0.5, .fin 1] ∧
    (Obj.const 1).probGrid (.lims 0 1) 3 = .ok [.fin 0, .fin 0.5, .fin 1] := by
  constructor
  · exact grid3
  · simp only [Obj.probGrid, constGrid, grid3]

/-- `test_grid`, the sum of two constants -/
example : ∃ s, (Obj.const 1).add (Obj.const 1) = .ok s ∧
    s.probGrid (.lims 0 1) 3 = .ok [.fin 0, .fin 0.5, .fin 1] := by
  refine ⟨.wsum [.const 1, .const 1] [.num 1, .num 1], ?_, ?_⟩
  · simp [Obj.add, Obj.csAdd]
  · simp only [Obj.probGrid, Obj.probGrids, constGrid, grid3, Bind.bind, Except.bind, Except.ok.injEq]
    exact unique3

/-! ## `tests/test_resonance.py`, `tests/test_recoil.py` -/

theorem box52 (k : PhysConst) : ∃ r, mkResonance k ground e52 none noRecoil = .ok r ∧
    r.er = 4.44498 ∧ r.br = 1 ∧ r.stat = 1.5 ∧ r.dist = uniformDist ∧ r.params = [4.44498 - 0.5, 1] := by
  refine ⟨_, by
    simp [mkResonance, statFactor, branchingRatio, integratedCS, fdiv, Level.partialWidths, lookup, ground,
      groundState, e52, state, noRecoil, bind, Except.bind]
    norm_num
    rfl, ?_⟩
  norm_num

/-- `test_resonance`, first object: value at the resonance energy, energy grids -/
example (k : PhysConst) : ∃ r, mkResonance k ground e52 none noRecoil = .ok r ∧
    r.call e52.exc = .ok (.fin r.ics) ∧ r.call 0 false = .ok (.fin r.ics) ∧
    r.er = e52.exc - ground.exc ∧ r.br = 1 ∧ r.stat = 1.5 ∧
    r.energyGrid (.cov 0.5) 3 = .ok [.fin (4.44498 - 0.25), .fin 4.44498, .fin (4.44498 + 0.25)] ∧
    r.energyGrid (.lims (4.44498 - 0.25) (4.44498 + 0.25)) 3 =
      .ok [.fin (4.44498 - 0.25), .fin 4.44498, .fin (4.44498 + 0.25)] ∧
    r.probGrid (.cov 0.5) 3 = .ok (some [.fin (4.44498 - 0.25), .fin 4.44498, .fin (4.44498 + 0.25)]) ∧
    r.probGrid (.lims (4.44498 - 0.25) (4.44498 + 0.25)) 3 =
      .ok (some [.fin (4.44498 - 0.25), .fin 4.44498, .fin (4.44498 + 0.25)]) := by
  obtain ⟨r, h0, h1, h2, h3, h4, h5⟩ := box52 k
  refine ⟨r, h0, ?_, ?_, ?_, h2, h3, ?_, ?_, ?_, ?_⟩
  · norm_num [Reso.call, h4, h5, uniformDist, scipyDist, locScale, uniformPdf, Fl.smul, e52, state,
      bind, Except.bind]
  · norm_num [Reso.call, h1, h4, h5, uniformDist, scipyDist, locScale, uniformPdf, Fl.smul, bind, Except.bind]
  · norm_num [h1, e52, ground, state, groundState]
  · norm_num [Reso.energyGrid, Reso.coverageInterval, h4, h5, uniformDist, scipyDist, locScale, ppfAt, Fl.isNeg,
      linspace3, bind, Except.bind]
  · norm_num [Reso.energyGrid, linspace3]
  · norm_num [Reso.probGrid, h4, h5, uniformDist, scipyDist, locScale, ppfAt,
      linspace3, bind, Except.bind]
  · norm_num [Reso.probGrid, h4, h5, uniformDist, scipyDist, locScale, ppfAt, uniformCdf, Reso.setEnds,
      linspace3, bind, Except.bind, Except.map]

/-- `test_resonance`, second object: branching ratio, statistical factor, energy-integrated cross section -/
example (k : PhysConst) : ∃ r, mkResonance k ground e32 (some e12) noRecoil = .ok r ∧
    r.er = e32.exc - ground.exc ∧ r.br = 0.144 ∧ r.stat = 1 ∧
    r.ics = Real.pi * Real.pi * k.hbarc ^ 2 / 5.02030 ^ 2 * (3 + 1) / (3 + 1) * 0.856 * 1.97e-6 * 0.144 := by
  have hw := e32_width
  have hb : branchingRatio e32 (some e12) = .ok 0.144 := by
    unfold branchingRatio
    simp only [hw]
    norm_num [names_ne, Level.partialWidths, e32, e12, state, lookup, fdiv, bind, Except.bind]
  have hs : statFactor ground e32 = .ok 1 := by
    norm_num [statFactor, fdiv, ground, e32, state, groundState]
  have hi : integratedCS ((Real.pi * k.hbarc) ^ 2) 5.02030 1 0.144 ground e32 =
      .ok ((Real.pi * k.hbarc) ^ 2 / 5.02030 ^ 2 * 1 * (0.856 * 1.97e-6) * 0.144) := by
    simp [integratedCS, fdiv, Level.partialWidths, lookup, ground, groundState, e32, state, bind, Except.bind]
    norm_num
  have he : noRecoil (e32.exc - ground.exc) = 5.02030 := by
    norm_num [noRecoil, ground, groundState, e32, state]
  refine ⟨_, by
    simp only [mkResonance, he, hs, hb, hi, bind, Except.bind]
    rfl, he.symm, rfl, rfl, ?_⟩
  ring

/-- `test_recoil` -/
example (k : PhysConst) : ∃ r, mkResonance k ground e52 none (freeNucleusRecoil k 11.009305166) = .ok r ∧
    r.er = (e52.exc - ground.exc) * (1 + (e52.exc - ground.exc) / (2 * 11.009305166 * k.u)) := by
  have hu := k.u_pos
  have he : freeNucleusRecoil k 11.009305166 (e52.exc - ground.exc) ≠ 0 := by
    have : 0 < e52.exc - ground.exc := by norm_num [ground, groundState, e52, state]
    unfold freeNucleusRecoil
    positivity
  have hs : statFactor ground e52 = .ok 1.5 := by
    norm_num [statFactor, fdiv, ground, e52, state, groundState]
  have hi : ∀ c er : ℝ, er ≠ 0 → ∃ x, integratedCS c er 1.5 1 ground e52 = .ok x := by
    intro c er h
    exact ⟨_, by
      simp [integratedCS, fdiv, h, Level.partialWidths, lookup, ground, groundState, e52, state, bind, Except.bind]
      rfl⟩
  obtain ⟨x, hx⟩ := hi ((Real.pi * k.hbarc) ^ 2) _ he
  exact ⟨_, by
    simp only [mkResonance, branchingRatio, hs, hx, bind, Except.bind]
    rfl, rfl⟩

/-! ## `test_warnings` -/

/-- the resonance of `test_warnings` -/
theorem warn_bw (k : PhysConst) : ∃ r, mkBreitWigner k (groundState "0" 0 1)
    (state "2" 2 1 1e-3 [("0", 1)]) none = .ok r ∧ r.dist = cauchyDist ∧ r.params = [1e-3, 0.5] := by
  refine ⟨_, by
    simp [mkBreitWigner, Level.width, pyNumSum, mkResonance, statFactor, branchingRatio, integratedCS, fdiv,
      Level.partialWidths, lookup, groundState, state, noRecoil, bind, Except.bind, pure, Except.pure]
    norm_num
    rfl, ?_⟩
  norm_num

/-- a coverage of 0.9: one warning; a coverage of 1: two warnings -/
example (k : PhysConst) : ∃ r, mkBreitWigner k (groundState "0" 0 1)
      (state "2" 2 1 1e-3 [("0", 1)]) none = .ok r ∧
    (∃ c, r.coverageInterval 0.9 = .ok c ∧ c.warnNegative.isSome ∧ ¬ c.warnInfinite) ∧
    (∃ c, r.coverageInterval 1 = .ok c ∧ c.warnNegative.isSome ∧ c.warnInfinite) := by
  obtain ⟨r, h0, h1, h2⟩ := warn_bw k
  refine ⟨r, h0, ?_, ?_⟩
  · have hneg : 1e-3 + 0.5 * Real.tan (Real.pi * (0.5 * (1 - 0.9)) - Real.pi / 2) < 0 := by
      have h : Real.tan (Real.pi * (0.5 * (1 - 0.9)) - Real.pi / 2) < Real.tan (-(Real.pi / 4)) := by
        apply Real.tan_lt_tan_of_lt_of_lt_pi_div_two <;> nlinarith [Real.pi_pos]
      rw [Real.tan_neg, Real.tan_pi_div_four] at h
      norm_num at h ⊢
      linarith
    refine ⟨_, by
      norm_num [Reso.coverageInterval, h1, h2, cauchyDist, scipyDist, locScale, ppfAt, cauchyPpf, Fl.isNeg,
        bind, Except.bind] at hneg ⊢
      rw [if_pos hneg], ?_⟩
    simp [Fl.isInf]
  · refine ⟨_, by
      norm_num [Reso.coverageInterval, h1, h2, cauchyDist, scipyDist, locScale, ppfAt, Fl.isNeg, bind, Except.bind]
      rfl, ?_⟩
    simp [Fl.isInf]

/-! ## `tests/test_doppler_width.py` -/

example (k : PhysConst) : getDopplerWidth k (2 * k.kB * 1e-6 / k.u) 1 2 = .ok 2 ∧
    ∃ w, getDopplerWidth k (2 * k.kB * 1e-6 / k.u) 1 1 = .ok w ∧
      getEffectiveTemperature k w (2 * k.kB * 1e-6 / k.u) 2 = .ok 0.25 := by
  have hu := k.u_pos
  have hk := k.kB_pos
  have h1 : 2 * k.kB * 1e-6 / k.u * k.u = 2 * k.kB * 1e-6 := by field_simp
  have h2 : 2 * k.kB * 1e-6 ≠ 0 := by positivity
  have hd : ∀ E, getDopplerWidth k (2 * k.kB * 1e-6 / k.u) 1 E = .ok E := by
    intro E
    simp only [getDopplerWidth, dopplerWidth, h1, if_neg h2]
    rw [mul_one, div_self h2]
    simp
  refine ⟨hd 2, 1, hd 1, ?_⟩
  have h3 : 2 * 2 * 2 * k.kB * 1e-6 ≠ 0 := by positivity
  simp only [getEffectiveTemperature, effectiveTemperature, if_neg h3, one_mul, h1]
  congr 1
  rw [div_eq_iff h3]
  ring

/-! ## `tests/test_integration.py` -/

/-- `test_quad_partition`, for every grid from 0 to 1, with a quadrature that is right for the function 1 -/
example (nquad : NQuad) (h : ∀ a b, (nquad (fun _ => 1) [(a, b)]).1 = b - a) (xs : List ℝ) :
    ∃ u, quadPartition nquad (fun _ => 1) (0 :: xs ++ [1]) .none = .ok (1, u) := by
  have key : ∀ (xs : List ℝ) (a : ℝ) (su : ℝ × ℝ),
      (quadLoop nquad (fun _ => 1) [] (a :: xs ++ [1]) su).1 = su.1 + (1 - a) := by
    intro xs
    induction xs with
    | nil => intro a su; simp [quadLoop, h]
    | cons b xs ih =>
      intro a su
      have := ih b (su.1 + (nquad (fun _ => 1) [(a, b)]).1, su.2 + (nquad (fun _ => 1) [(a, b)]).2 *
        (nquad (fun _ => 1) [(a, b)]).2)
      simp only [List.cons_append, quadLoop] at this ⊢
      rw [this, h]
      ring
  have h1 := key xs 0 (0, 0)
  refine ⟨Real.sqrt (quadLoop nquad (fun _ => 1) [] (0 :: xs ++ [1]) (0, 0)).2, ?_⟩
  simp only [quadPartition, LimArg.orEmpty, bind, Except.bind]
  rw [h1]
  norm_num

/-- `test_darboux` with three points -/
example : darboux (.vals (.arr [1, 1, 1])) [0, 0.5, 1] = .ok (1, 0) := by
  norm_num [darboux, diffs, roll1, bmul, bind, Except.bind]

/-- `test_darboux_lower_upper` with five points -/
example : darboux (.vals (.arr [1, 0, 1, 0, 1])) [0, 1, 2, 3, 4] = .ok (0, 4) := by
  norm_num [darboux, diffs, roll1, bmul, bind, Except.bind]

/-- `test_resonance_integration` (first part, 2000 points) and `test_resonance_integration_2d` (250 points) with exact integrals of the
pieces, for constants of the order of magnitude of the ones of CODATA -/
example (k : PhysConst) (hk : k.kB < 1e-4 ∧ 900 < k.u) (nquad : NQuad) (hex : ∀ f ls, nquad f ls = (iterIntegral f ls, 0)) :
    ∃ r, mkGauss k ground e12 11.009305166 1 none = .ok r ∧ 0 < r.ics ∧
      (∀ f, IntegratesReso r (fun _ => 1) f → ∃ g I D, r.probGrid (.lims 1 3) 2000 = .ok (some (g.map .fin)) ∧
        quadPartition nquad f g (.list []) = .ok (I, D) ∧ |I - r.ics| ≤ 1e-3 * r.ics) ∧
      (∀ f, IntegratesReso r (fun _ => 1) f → ∃ g I D, r.probGrid (.lims 1 3) 250 = .ok (some (g.map .fin)) ∧
        quadPartition nquad f g (.list [(0, 1)]) = .ok (I, D) ∧ |I - r.ics| ≤ 1e-2 * r.ics) := by
  have hm : (11.009305166 : ℝ) ≠ 0 := by norm_num
  obtain ⟨r0, h0, he, hI⟩ : ∃ r0, mkResonance k ground e12 none noRecoil = .ok r0 ∧ r0.er = 2.124693 ∧ 0 < r0.ics := by
    have := k.hbarc_pos
    refine ⟨_, by
      simp [mkResonance, statFactor, branchingRatio, integratedCS, fdiv, Level.partialWidths, lookup, ground,
        groundState, e12, state, noRecoil, bind, Except.bind]
      norm_num
      rfl, ?_, ?_⟩
    · norm_num
    · simp only
      positivity
  have hr : mkGauss k ground e12 11.009305166 1 none =
      .ok { r0 with dist := normDist, params := [r0.er, dopplerWidth k 11.009305166 1 r0.er / Real.sqrt 2] } := by
    simp [mkGauss, h0, getDopplerWidth_ok k hm, Bind.bind, Except.bind]
  generalize hR : ({ r0 with dist := normDist, params := [r0.er, dopplerWidth k 11.009305166 1 r0.er / Real.sqrt 2] } : Reso) = r at hr
  have he' : r.er = 2.124693 := by rw [← hR]; exact he
  have hI' : 0 < r.ics := by rw [← hR]; exact hI
  have hexc : ground.exc < e12.exc := by norm_num [ground, e12, groundState, state]
  have hpe : 0 < r.er := by rw [he']; norm_num
  have hD0 := dopplerWidth_pos k (show (0 : ℝ) < 11.009305166 by norm_num) one_pos hpe
  have hD : dopplerWidth k 11.009305166 1 r.er ≤ 0.1 := by
    unfold dopplerWidth
    have : Real.sqrt (2 * k.kB * 1e-6 * 1 / (11.009305166 * k.u)) ≤ 0.01 := by
      refine Real.sqrt_le_iff.2 ⟨by norm_num, ?_⟩
      rw [div_le_iff₀ (by nlinarith [hk.2])]
      nlinarith [hk.1, hk.2]
    rw [he']
    linarith
  have hexp : Real.exp (-(0.8 / dopplerWidth k 11.009305166 1 r.er) ^ 2) ≤ 1e-3 := by
    have h1 : 8 ≤ 0.8 / dopplerWidth k 11.009305166 1 r.er := by
      rw [le_div_iff₀ hD0]; linarith
    have h2 : -(0.8 / dopplerWidth k 11.009305166 1 r.er) ^ 2 ≤ -64 := by nlinarith
    have h3 : (1000 : ℝ) ≤ Real.exp 64 := by
      have := Real.add_one_le_exp (32 : ℝ)
      have h6 : Real.exp 64 = Real.exp 32 * Real.exp 32 := by rw [← Real.exp_add]; norm_num
      rw [h6]
      nlinarith
    calc _ ≤ Real.exp (-64) := Real.exp_le_exp.2 h2
      _ = 1 / Real.exp 64 := by rw [Real.exp_neg, one_div]
      _ ≤ 1 / 1000 := one_div_le_one_div_of_le (by norm_num) h3
      _ = 1e-3 := by norm_num
  have key : ∀ (n : ℤ) (rest : List (ℝ × ℝ)), 2 ≤ n → iterIntegral (fun _ => 1) rest = 1 → ∀ f, IntegratesReso r (fun _ => 1) f →
      ∃ g I D, r.probGrid (.lims 1 3) n = .ok (some (g.map .fin)) ∧ quadPartition nquad f g (.list rest) = .ok (I, D) ∧
        |I - r.ics| ≤ 1e-3 * r.ics := by
    intro n rest hn h1 f hf
    obtain ⟨g, e1, e2⟩ := C186_quadrature (L := 0.8) (lo := 1) (hi := 3) (rest := rest) hr (by norm_num) one_pos hexc hI'.le (by norm_num)
      (by rw [he']; norm_num) (by rw [he']; norm_num) n hn hf (by unfold ContArgs; exact continuous_const)
    obtain ⟨I, D, e3, e4⟩ := e2 nquad fun p _ => by rw [hex]; simp
    have hD0 : D = 0 := by
      simp only [quadPartition, LimArg.orEmpty, Bind.bind, Except.bind, quadLoop_eq, hex] at e3
      cases e3
      simp
    rw [hD0, h1, mul_zero, zero_add, mul_one, abs_one, mul_one] at e4
    exact ⟨g, I, D, e1, e3, e4.trans (mul_le_mul_of_nonneg_right hexp hI'.le)⟩
  refine ⟨r, hr, hI', key 2000 [] (by norm_num) rfl, fun f hf => ?_⟩
  obtain ⟨g, I, D, e1, e2, e3⟩ := key 250 [(0, 1)] (by norm_num) (by simp [iterIntegral]) f hf
  exact ⟨g, I, D, e1, e2, e3.trans (mul_le_mul_of_nonneg_right (by norm_num) hI'.le)⟩

/-! ## `tests/test_element.py` -/

example : (shippedElement 82).Z = 82 ∧ (shippedElement 82).isotopes.length = 4 ∧
    dictGet "208Pb".toList (shippedElement 82).isotopes = .ok (some 207.9766525) ∧
    dictGet "208Pb".toList (shippedElement 82).abundances = .ok 0.524 ∧
    (shippedElement 82).amu = 203.9730440 * 0.014 + 205.9744657 * 0.241 + 206.9758973 * 0.221 +
      207.9766525 * 0.524 ∧
    (shippedElement 82).density = some 11.35 ∧
    (shippedElement 6).amu = 0.9893 * 12 + 0.0107 * 13.00335483507 := by
  decide +kernel

/-- the elements above are those of the dictionary `natural_elements` -/
example : ∃ syms els, naturalElements shippedNist.render shippedDensities.render = .ok (syms, els) ∧
    dictGet "Pb".toList els = .ok (shippedElement 82) := by
  obtain ⟨syms, els, h1, h2⟩ := shipped_loopInput
  refine ⟨syms, els, h1, ?_⟩
  rw [← symbol82]
  exact h2.element 82 (by decide)

/-! ## `tests/test_xrmac.py` -/

theorem pb_split : ∃ l pre post, xrmacLines 82 = pre ++ l :: post ∧ l.energy.value = 1 ∧ l.mu.value = 7.102e-2 ∧
    ∀ k ∈ post, k.energy.value ≠ 1 := by
  have h1 : ((xrmacLines 82).drop 46).head?.map (fun l => (l.energy.value, l.mu.value)) = some (1, 7.102e-2) := by
    decide +kernel
  have h2 : ∀ k ∈ ((xrmacLines 82).drop 46).tail, k.energy.value ≠ 1 := by decide +kernel
  have h3 := List.take_append_drop 46 (xrmacLines 82)
  generalize (xrmacLines 82).take 46 = pre at h3
  generalize (xrmacLines 82).drop 46 = rest at h1 h2 h3
  cases rest with
  | nil => cases h1
  | cons l post =>
    obtain ⟨h4, h5⟩ := Prod.mk.inj (Option.some.inj h1)
    exact ⟨l, pre, post, h3.symm, h4, h5, h2⟩

/-- the values of `xrmac_cm2_per_g["Pb"]` and `xrmac_fm2_per_atom["Pb"]` at 1 MeV -/
theorem pb_values {mu : ℝ} (hmu : 0 < mu) :
    ∃ st g a, importXrmac shippedNist.render shippedDensities.render xrmacText mu = .ok st ∧
      dictGet "Pb".toList st.perGram = .ok g ∧ dictGet "Pb".toList st.perAtom = .ok a ∧
      g.call 1 = .ok (.fin 7.102e-2) ∧
      a.call 1 = .ok (.fin (7.102e-2 * 1e26 * (shippedElement 82).amu * mu * 1e3)) := by
  obtain ⟨syms, els, h1, h2⟩ := shipped_loopInput
  obtain ⟨st, h3, -, -, -, h4⟩ := moduleLoop_ok (mu := mu) h2
  obtain ⟨g, a, h5, h6, h7, -⟩ := h4 82 (by decide)
  obtain ⟨st', h8, h9⟩ := C73_partial hmu
  obtain rfl := Except.ok.inj (h8.symm.trans (importXrmac_ok h1 h3))
  obtain ⟨g', a', h10, h11, h12⟩ := h9 82 (by decide)
  obtain rfl := Except.ok.inj (h5.symm.trans h10)
  obtain rfl := Except.ok.inj (h6.symm.trans h11)
  obtain ⟨v, -, h13, h14, -⟩ := h12 1 zero_le_one
  obtain ⟨rows, h15, h16⟩ := read_shipped (Z := 82) (by decide) id
  obtain rfl := Except.ok.inj (h7.symm.trans h15)
  have h17 : toTable g.data = tableOf 82 := by simpa using h16
  obtain ⟨l, pre, post, hs, he, hm, hp⟩ := pb_split
  have h18 : HasValue (tableOf 82) 1 7.102e-2 := by
    refine C48_nodes (tableOf_pos (by decide)) (pre.map fun l => ((l.energy.value : ℝ), (l.mu.value : ℝ)))
      (post.map fun l => ((l.energy.value : ℝ), (l.mu.value : ℝ))) ?_ ?_
    · rw [tableOf, hs, List.map_append, List.map_cons, he, hm]
      norm_num
    · intro r hr
      obtain ⟨k, hk, rfl⟩ := List.mem_map.1 hr
      have := hp k hk
      show ((k.energy.value : ℚ) : ℝ) ≠ 1
      exact_mod_cast this
  have h19 : g.call 1 = .ok (.fin 7.102e-2) := by
    rw [StoredXrmac.call, h17]
    exact h18
  rw [h13] at h19
  obtain rfl := Fl.fin.inj (Except.ok.inj h19)
  refine ⟨st', g, a, h8, symbol82 ▸ h5, symbol82 ▸ h6, h13, ?_⟩
  rw [h14]
  generalize ((shippedElement 82).amu : ℝ) = m
  have : 1e29 * m * mu * 7.102e-2 = 7.102e-2 * 1e26 * m * mu * 1e3 := by ring
  rw [this]

/-! ## `tests/test_debye_model.py` -/

example : debyeTemperature 0 100 = .error .zeroDivision ∧
    ∃ Te, debyeTemperature 1000 100 = .ok Te ∧ |Te - 1000| ≤ 1e-8 + 1e-3 * 1000 := by
  refine ⟨by simp [debyeTemperature], ?_⟩
  obtain ⟨Te, h1, h2, h3⟩ := C38_classical_bound (T := 1000) (TD := 100) (by norm_num) (by norm_num)
  refine ⟨Te, h1, ?_⟩
  rw [abs_le]
  constructor <;> norm_num at h3 ⊢ <;> linarith

example : ∃ Te, debyeTemperature 1 100 = .ok Te ∧ |Te - 3 / 8 * 100| ≤ 1e-8 + 1e-3 * (3 / 8 * 100) := by
  obtain ⟨Te, h1, h2, h3⟩ := C108_cold_bound (T := 1) (TD := 100) (by norm_num) (by norm_num)
  refine ⟨Te, h1, ?_⟩
  have h4 : Real.pi ^ 4 ≤ 4 ^ 4 := pow_le_pow_left₀ Real.pi_pos.le Real.pi_le_four 4
  rw [abs_le]
  constructor <;> norm_num at h2 h3 h4 ⊢ <;> linarith

/-! ## `tests/test_klein_nishina.py` -/

/-- `test_klein_nishina`, with exact integrals, for every electron mass near the one of CODATA -/
example (k : PhysConst) (hk : 0.51 < k.me ∧ k.me < 0.512) (E : ℝ) (hE : E ∈ [(0.5 : ℝ), 1, 5, 10]) :
    KN.comptonEdge k E = E * KN.EpOverE k E Real.pi ∧ E * KN.EpOverE k E (KN.theta k E (0.5 * E)) = 0.5 * E ∧
    (∫ Ep in KN.comptonEdge k E..E, ∫ φ in (0 : ℝ)..(2 * Real.pi), (KN.electron k 1).dEpdPhi k E Ep φ) =
      (KN.electron k 1).total k E ∧
    (∫ θ in (0 : ℝ)..Real.pi, ∫ φ in (0 : ℝ)..(2 * Real.pi), (KN.electron k 1).dOmega k E θ φ * Real.sin θ) =
      (KN.electron k 1).total k E ∧
    (∫ Ep in KN.comptonEdge k E..E, (KN.electron k 1).dEp k E Ep) = (KN.electron k 1).total k E ∧
    (∫ θ in (0 : ℝ)..Real.pi, (KN.electron k 1).dTheta k E θ) = (KN.electron k 1).total k E := by
  have h5 : 0.5 ≤ E := by
    simp only [List.mem_cons, List.not_mem_nil, or_false] at hE
    rcases hE with rfl | rfl | rfl | rfl <;> norm_num
  have h0 : 0 < E := lt_of_lt_of_le (by norm_num) h5
  have hm := k.me_pos
  refine ⟨by simp [KN.comptonEdge, mul_comm], ((C41_theta_energy_inverse k E h0).2 _ ⟨?_, by linarith⟩).1,
    (C43_energy_integral k 1 E h0).2, (C42_angular_integral k 1 E h0).1, (C43_energy_integral k 1 E h0).1,
    (C42_angular_integral k 1 E h0).2⟩
  have h1 : KN.comptonEdge k E = E / (1 + 2 * (E / k.me)) := by
    simp [KN.comptonEdge, KN.EpOverE]; ring
  rw [h1, div_le_iff₀ (by positivity)]
  have : 0.976 ≤ E / k.me := by
    rw [le_div_iff₀ hm]
    nlinarith [hk.2]
  nlinarith

/-! ## `tests/test_voigt_ppf.py` -/

/-- the quantile 1/2, as a number and twice in an array -/
example (d : ℝ) (hd : 0 ≤ d) : (mkPV 1e6 1 d).ppfScalar 0.5 = (.fin 1e6, false) ∧
    (mkPV 1e6 1 d).ppfArray [0.5, 0.5] = ⟨some [.fin 1e6, .fin 1e6], false⟩ := by
  have hok : PV.Ok 1 d := ⟨one_pos.le, hd, Or.inl one_pos⟩
  refine ⟨by
    rw [show (0.5 : ℝ) = 1 / 2 by norm_num]
    exact C33_median 1e6 1 d one_pos.le hd (Or.inl one_pos), ?_⟩
  have hhalf : (mkPV 1e6 1 d).cdfR 1e6 = 1 / 2 := hok.half
  have her : (mkPV 1e6 1 d).er = 1e6 := rfl
  have h0 : (0.5 : ℝ) = 1 / 2 := by norm_num
  simp [PV.ppfArray, hok.valid, newtonArray, newtonLoop, her, hhalf, h0]

/-! ## `tests/test_resonance_models.py` -/

/-- `test_coverage` for the Breit-Wigner and the Gauss shape -/
example {r : Reso} (h : IsBreitWigner r ∨ IsGauss r) : ∃ (ci : Reso.Cov) (σ : ℝ → ℝ) (lo hi : ℝ),
    r.coverageInterval 0.5 = .ok ci ∧ ci.lo = .fin lo ∧ ci.hi = .fin hi ∧ r.HasSigma σ ∧
    (∫ E in lo..hi, σ E) = 0.5 * r.ics := by
  obtain ⟨ci, σ, lo, hi, h1, h2, h3, h4, -, -, h5, -⟩ := C16_coverage_interval h (c := 0.5) (by norm_num) (by norm_num)
  obtain ⟨σ', h6, -, h7⟩ := C19_analytic h
  exact ⟨ci, σ, lo, hi, h1, h2, h3, h4, by rw [h5, ← h7, sigma_unique h4 h6]⟩

end Ries.Validation
