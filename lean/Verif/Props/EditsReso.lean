import Verif.Model.EditsReso
import Verif.Props.Coverage

/-! # C124: attributes of resonances changed after construction -/

namespace Ries

namespace ResoObj

theorem edit_frame {o p : ResoObj} {e : ResoEdit} (h : o.edit e = .ok p) : p.attrs.dist = o.attrs.dist ∧ p.attrs.params = o.attrs.params ∧
    ((∀ x, e ≠ .setIntegral x) → e ≠ .refreshIntegral → p.attrs.ics = o.attrs.ics) ∧
    ((∀ x, e ≠ .setEnergy x) → p.attrs.er = o.attrs.er) := by
  cases e <;> simp only [edit, Except.ok.injEq] at h
  case refreshStat | refreshRatio | refreshIntegral =>
    simp only [Bind.bind, Except.bind] at h
    split at h
    · contradiction
    · cases h
      simp
  all_goals
    subst h
    simp

theorem edits_frame {o p : ResoObj} {es : List ResoEdit} (h : o.edits es = .ok p) :
    p.attrs.dist = o.attrs.dist ∧ p.attrs.params = o.attrs.params ∧
    ((∀ x, .setIntegral x ∉ es) → .refreshIntegral ∉ es → p.attrs.ics = o.attrs.ics) ∧
    ((∀ x, .setEnergy x ∉ es) → p.attrs.er = o.attrs.er) := by
  induction es generalizing o with
  | nil => cases h; exact ⟨rfl, rfl, fun _ _ => rfl, fun _ => rfl⟩
  | cons e es ih =>
    rw [edits] at h
    simp only [Bind.bind, Except.bind] at h
    split at h
    · contradiction
    · rename_i q hq
      obtain ⟨a1, a2, a3, a4⟩ := edit_frame hq
      obtain ⟨b1, b2, b3, b4⟩ := ih h
      refine ⟨b1.trans a1, b2.trans a2, fun h1 h2 => ?_, fun h1 => ?_⟩
      · rw [b3 (fun x hx => h1 x (List.mem_cons_of_mem _ hx)) (fun hx => h2 (List.mem_cons_of_mem _ hx))]
        exact a3 (fun x hx => h1 x (by rw [hx]; exact List.mem_cons_self)) (fun hx => h2 (by rw [hx]; exact List.mem_cons_self))
      · rw [b4 (fun x hx => h1 x (List.mem_cons_of_mem _ hx))]
        exact a4 (fun x hx => h1 x (by rw [hx]; exact List.mem_cons_self))

end ResoObj

/-- C124 for resonances, what edits do: after any program of assignments that does not assign the energy-integrated cross section, values
at absolute energies, coverage intervals and both grids are those from before, whatever has become of the states, the energy, the
statistical factor and the branching ratio. A new resonance energy is used for relative energies only. -/
theorem C124_resonance_partial {o p : ResoObj} {es : List ResoEdit} (h : o.edits es = .ok p) :
    ((∀ x, .setIntegral x ∉ es) → .refreshIntegral ∉ es → ∀ E, p.attrs.call E true = o.attrs.call E true ∧
      p.attrs.call E false = o.attrs.call (E + p.attrs.er) true) ∧
    (∀ c, p.attrs.coverageInterval c = o.attrs.coverageInterval c) ∧
    (∀ req n, p.attrs.energyGrid req n = o.attrs.energyGrid req n ∧ p.attrs.probGrid req n = o.attrs.probGrid req n) := by
  obtain ⟨h1, h2, h3, -⟩ := ResoObj.edits_frame h
  have hc : ∀ c, p.attrs.coverageInterval c = o.attrs.coverageInterval c := fun c => by
    unfold Reso.coverageInterval
    rw [h1, h2]
  refine ⟨fun a b E => ?_, hc, fun req n => ⟨?_, ?_⟩⟩
  · unfold Reso.call
    rw [h1, h2, h3 a b]
    exact ⟨rfl, rfl⟩
  · unfold Reso.energyGrid
    cases req <;> simp only [hc]
  · unfold Reso.probGrid
    rw [h1, h2]

/-- a program that goes on -/
theorem ResoObj.edits_append {o : ResoObj} (es fs : List ResoEdit) :
    o.edits (es ++ fs) = (o.edits es >>= fun p => p.edits fs) := by
  induction es generalizing o with
  | nil => rfl
  | cons e es ih =>
    simp only [List.cons_append, edits, Bind.bind, Except.bind]
    cases o.edit e with
    | error e => rfl
    | ok p => exact ih

/-- C124 for resonances, the integral: whatever else was assigned before, values at absolute energies after an assignment of the
energy-integrated cross section are those of the object before the program, scaled to the new integral. -/
theorem C124_integral_partial {o p : ResoObj} {es : List ResoEdit} {x : ℝ} (h : o.edits (es ++ [.setIntegral x]) = .ok p)
    (hI : o.attrs.ics ≠ 0) {E v : ℝ} (hv : o.attrs.call E true = .ok (.fin v)) :
    p.attrs.call E true = .ok (.fin (x / o.attrs.ics * v)) := by
  rw [ResoObj.edits_append] at h
  simp only [Bind.bind, Except.bind] at h
  split at h
  · contradiction
  · rename_i q hq
    obtain ⟨a1, a2, -, -⟩ := ResoObj.edits_frame hq
    simp only [ResoObj.edits, ResoObj.edit, Bind.bind, Except.bind, Except.ok.injEq] at h
    subst h
    unfold Reso.call at hv ⊢
    simp only [a1, a2, if_true, Bind.bind, Except.bind] at hv ⊢
    cases hp : o.attrs.dist.pdf o.attrs.params E with
    | error e => rw [hp] at hv; contradiction
    | ok y =>
      rw [hp] at hv
      simp only [Except.ok.injEq] at hv ⊢
      cases y with
      | fin y =>
        simp only [Fl.smul, Fl.fin.injEq] at hv ⊢
        rw [← hv]
        field_simp
      | nan => simp [Fl.smul] at hv
      | ninf => simp only [Fl.smul] at hv; split_ifs at hv
      | pinf => simp only [Fl.smul] at hv; split_ifs at hv

/-- a program with an assignment of the integral after one of a state, for an object with a value -/
example : ∃ (o p : ResoObj) (v : ℝ), o.edits [.setInter { exMid with twoJ := 3 }, .setIntegral 7] = .ok p ∧
    o.attrs.ics ≠ 0 ∧ o.attrs.call 2 true = .ok (.fin v) := by
  refine ⟨⟨exGround, exMid, none, ⟨2, 1, 1, 1, 5, cauchyDist, [2, 1]⟩⟩, _, 5 * cauchyPdf 2 1 2, rfl, by norm_num, ?_⟩
  simp [Reso.call, cauchyDist, scipyDist, locScale, Bind.bind, Except.bind, Fl.smul]

/-- the assignments that bring the numbers up to date with the states, in the order of the constructor -/
def refreshed (init inter : Level) (final : Option Level) : List ResoEdit :=
  [.setInit init, .setInter inter, .setFinal final, .refreshStat, .refreshRatio, .refreshIntegral]

/-- C124 for Breit-Wigner resonances, how to edit: if new states have the same difference of energies and the same width, then assigning
them and calling the three methods in the order of the constructor gives exactly the new object. -/
theorem C124_resonance_refresh {k : PhysConst} {init inter init' inter' : Level} {final final' : Option Level} {r : Reso}
    (h : mkBreitWigner k init inter final = .ok r) (he : inter'.exc - init'.exc = inter.exc - init.exc) (hw : inter'.width = inter.width) :
    ResoObj.edits ⟨init, inter, final, r⟩ (refreshed init' inter' final') =
      (mkBreitWigner k init' inter' final').map (fun r' => ⟨init', inter', final', r'⟩) := by
  obtain ⟨r0, w, h0, hw0, rfl⟩ := mkBreitWigner_inv h
  obtain ⟨e1, -, e3, -⟩ := mkResonance_inv h0
  have e1' : r0.er = inter'.exc - init'.exc := by rw [he]; exact e1
  unfold refreshed mkBreitWigner mkResonance noRecoil
  simp only [ResoObj.edits, ResoObj.edit, ResoObj.getStat, ResoObj.getRatio, ResoObj.getIntegral, Bind.bind, Except.bind, e3, ← e1', hw, hw0]
  cases hs : statFactor init' inter' with
  | error e => rfl
  | ok s =>
    cases hb : branchingRatio inter' final' with
    | error e => simp [hb, Except.map]
    | ok b =>
      cases hi : integratedCS ((Real.pi * k.hbarc) ^ 2) r0.er s b init' inter' with
      | error e => simp [hb, hi, Except.map]
      | ok i => simp [hb, hi, Except.map]

/-- The order matters: with the last method first, the integrated cross section belongs to the old statistical factor. Here the spin of the
excited state is changed, which doubles the new value. -/
theorem C124_resonance_order (k : PhysConst) : ∃ r r' p, mkBreitWigner k exGround exMid none = .ok r ∧
    mkBreitWigner k exGround { exMid with twoJ := 3 } none = .ok r' ∧
    ResoObj.edits ⟨exGround, exMid, none, r⟩ [.setInter { exMid with twoJ := 3 }, .refreshIntegral, .refreshStat, .refreshRatio] = .ok p ∧
    p.attrs.stat = r'.stat ∧ p.attrs.br = r'.br ∧ p.attrs.ics = r.ics ∧ r'.ics = 2 * r.ics ∧ 0 < r.ics := by
  have hpi := Real.pi_pos
  have hh := k.hbarc_pos
  have hw : ({ exMid with twoJ := 3 } : Level).width = .ok 1e-5 := exMid_width
  have hs : statFactor exGround exMid = .ok (1 / 2) := by
    norm_num [statFactor, fdiv, exGround, exMid, state, groundState]
  have hs' : statFactor exGround { exMid with twoJ := 3 } = .ok 1 := by
    norm_num [statFactor, fdiv, exGround, exMid, state, groundState]
  have hi : ∀ c s b : ℝ, integratedCS c 2 s b exGround exMid = .ok (c / 2 ^ 2 * s * 1e-5 * b) := fun c s b => by
    simp [integratedCS, fdiv, exGround, exMid, state, groundState, Level.partialWidths, lookup, Bind.bind, Except.bind]
  have hi' : ∀ c s b : ℝ, integratedCS c 2 s b exGround { exMid with twoJ := 3 } = .ok (c / 2 ^ 2 * s * 1e-5 * b) := hi
  have he : exMid.exc - exGround.exc = 2 := by norm_num [exMid, exGround, state, groundState]
  refine ⟨⟨2, (Real.pi * k.hbarc) ^ 2, 1 / 2, 1, (Real.pi * k.hbarc) ^ 2 / 2 ^ 2 * (1 / 2) * 1e-5 * 1, cauchyDist, [2, 0.5 * 1e-5]⟩,
    ⟨2, (Real.pi * k.hbarc) ^ 2, 1, 1, (Real.pi * k.hbarc) ^ 2 / 2 ^ 2 * 1 * 1e-5 * 1, cauchyDist, [2, 0.5 * 1e-5]⟩,
    ⟨exGround, { exMid with twoJ := 3 }, none,
      ⟨2, (Real.pi * k.hbarc) ^ 2, 1, 1, (Real.pi * k.hbarc) ^ 2 / 2 ^ 2 * (1 / 2) * 1e-5 * 1, cauchyDist, [2, 0.5 * 1e-5]⟩⟩,
    ?_, ?_, ?_, rfl, rfl, rfl, ?_, ?_⟩
  · simp only [mkBreitWigner, mkResonance, noRecoil, branchingRatio, Bind.bind, Except.bind, he, hs, hi, exMid_width]
  · simp only [mkBreitWigner, mkResonance, noRecoil, branchingRatio, Bind.bind, Except.bind, he, hs', hi', hw]
  · simp only [ResoObj.edits, ResoObj.edit, ResoObj.getStat, ResoObj.getRatio, ResoObj.getIntegral, branchingRatio, Bind.bind, Except.bind,
      hs', hi']
  · dsimp only; ring
  · dsimp only; positivity

/-- the states of `C124_resonance_refresh` may differ in spins and parities -/
example : ({ exMid with twoJ := 3 } : Level).width = exMid.width ∧
    ({ exMid with twoJ := 3 } : Level).exc - exGround.exc = exMid.exc - exGround.exc := ⟨rfl, rfl⟩

end Ries
