import Verif.Model.Inputs
import Verif.Props.CrossSection
import Verif.Props.Elements
import Verif.Props.Xrmac

/-! # Properties C89 - C92: numpy scalars, isotope lists, attenuation arrays, edited states -/

namespace Ries

open Obj Text

/-! ## C89 -/

/-- C89 is false with a numpy scalar on the right: adding it to a cross section that is not a sum succeeds, but the result
cannot be evaluated at any energy; adding it to a weighted sum raises `AttributeError`. -/
theorem C89_refuted (x : ℝ) :
    (∀ l : Leaf, ∃ s, NpOperand.add (.py (.leaf l)) (.np x) = .ok s ∧
      ∀ E v, l.eval E = .ok v → s.call E = .error .typeError) ∧
    (∀ rs ss, WF (.wsum rs ss) → NpOperand.add (.py (.wsum rs ss)) (.np x) = .error .attributeError) := by
  refine ⟨fun l => ⟨_, rfl, fun E v h => ?_⟩, fun rs ss h => ?_⟩
  · simp [call, callLoop, h, Obj.mul, Obj.add, bind, Except.bind, Except.map]
  · cases h with
    | wsum _ _ hr hs hl =>
      have : ∃ l, pairScales rs ss = .ok l := by
        clear hr hs
        induction rs generalizing ss with
        | nil => exact ⟨[], by simp [pairScales]⟩
        | cons r rs ih =>
          cases ss with
          | nil => simp at hl
          | cons s ss =>
            obtain ⟨l, hl'⟩ := ih ss (by simpa using hl)
            exact ⟨s :: l, by simp [pairScales, hl', Except.map]⟩
      obtain ⟨l, hl'⟩ := this
      simp [NpOperand.add, hl', bind, Except.bind]

/-- C89, what holds: a numpy scalar as a left summand, and as a factor on either side. -/
theorem C89_partial (a : Obj) (x : ℝ) (ha : WF a) :
    (∃ s, NpOperand.add (.np x) (.py a) = .ok s ∧ WF s ∧ ∀ E, s.call E = (do let v ← value a E; .ok (.num (x + v)))) ∧
    (∃ s, NpOperand.mul (.np x) (.py a) = .ok s ∧ WF s ∧ ∀ E, s.call E = (do let v ← value a E; .ok (.num (x * v)))) ∧
    (∃ s, NpOperand.mul (.py a) (.np x) = .ok s ∧ WF s ∧ ∀ E, s.call E = (do let v ← value a E; .ok (.num (x * v)))) := by
  refine ⟨?_, ?_, ?_⟩
  · obtain ⟨s, h1, h2, h3⟩ := C01_sum_evaluates_to_sum (.num x) a (.inl ⟨x, rfl⟩) (.inr ha) (by
      cases ha <;> simp [isNum])
    refine ⟨s, h1, h2, fun E => ?_⟩
    rw [h3, value_num]
    rfl
  · exact (C02_scaling a x ha).1
  · obtain ⟨s, h1, h2, h3⟩ := (C02_scaling a x ha).2
    refine ⟨s, ?_, h2, h3⟩
    rw [← h1]
    cases a <;> rfl

/-- The hypotheses hold for the sum of a leaf and a constant. -/
example (l : Leaf) : WF (.wsum [.leaf l, .const 2] [.num 1, .num 3]) :=
  .wsum _ _ (by intro r hr; simp at hr; rcases hr with rfl | rfl <;> constructor) (by
    intro s hs; simp at hs; rcases hs with rfl | rfl <;> exact ⟨_, rfl⟩) (by simp)

/-! ## C90 -/

/-- C90 is false: no element can be built from a nonempty list or array of isotopes. -/
theorem C90_refuted (ab : List ℝ) (m : Option ℝ) (ms : List (Option ℝ)) :
    (Composition.lists ab (m :: ms)).amu = .error .typeError ∧ (Composition.arrays ab (m :: ms)).amu = .error .indexError :=
  ⟨rfl, rfl⟩

/-- C90, what holds: dictionaries with the same keys; the mass is the sum of mass times abundance. -/
theorem C90_partial {ab : List (String × ℝ)} (hd : (ab.map Prod.fst).Nodup) {m a : String → ℝ} {ks : List String}
    (ha : ∀ k ∈ ks, (k, a k) ∈ ab) :
    (Composition.dicts ab (ks.map fun k => (k, some (m k)))).amu = .ok ((ks.map fun k => m k * a k).sum) :=
  C55_weighted_sum hd ha

example : (([("10B", 0.2), ("11B", 0.8)] : List (String × ℝ)).map Prod.fst).Nodup := by decide

/-! ## C91 -/

/-- The table with both conversions applied. -/
def convertTable (ec xc : ℝ → ℝ) (t : Table) : Table := t.map fun r => (ec r.1, xc r.2)

/-- C91, what holds: data from a file are converted by the two functions. -/
theorem C91_partial (text : Str) (ec xc : ℝ → ℝ) :
    mkXrmac (.file text) ec xc = (mkXrmac (.file text) id id).map (convertTable ec xc) := by
  have hline : ∀ skip line, readXrmacLine ec xc skip line =
      (readXrmacLine id id skip line).map fun r => (ec r.1, xc r.2.1, xc r.2.2) := by
    intro skip line
    unfold readXrmacLine
    split
    · rfl
    · rename_i a rest _
      simp only [bind, Except.bind, id]
      rcases parseFloat a with e | v
      · rfl
      rcases rest with - | ⟨b, rest⟩
      · rfl
      simp only
      rcases parseFloat b with e | v'
      · rfl
      rcases rest with - | ⟨c, rest⟩
      · rfl
      simp only
      rcases parseFloat c with e | v''
      · rfl
      · rfl
  have hmap : ∀ skip (ls : List Str), ls.mapM (readXrmacLine ec xc skip) =
      (ls.mapM (readXrmacLine id id skip)).map (List.map fun r => (ec r.1, xc r.2.1, xc r.2.2)) := by
    intro skip ls
    induction ls with
    | nil => rfl
    | cons l ls ih =>
      rw [List.mapM_cons, List.mapM_cons, ih, hline]
      cases h1 : readXrmacLine id id skip l <;> cases h2 : ls.mapM (readXrmacLine id id skip) <;> rfl
  cases text with
  | nil => rfl
  | cons c cs =>
    simp only [mkXrmac, readXrmac, hmap]
    generalize (List.mapM (readXrmacLine id id _) _) = e
    cases e with
    | error e => rfl
    | ok rows => simp [Except.map, toTable, convertTable, Function.comp_def]

/-- C91 is false for arrays: the conversion functions are ignored. With energies to be converted from MeV to eV, the cross
section at 2e6 is not the one tabulated for 2 MeV. -/
theorem C91_refuted :
    (∀ rows ec xc, mkXrmac (.array rows) ec xc = .ok rows) ∧
    ∃ (rows : Table) (ec : ℝ → ℝ) (t : Table), mkXrmac (.array rows) ec id = .ok t ∧ (2, 4) ∈ rows ∧
      HasValue (convertTable ec id rows) (ec 2) 4 ∧ HasValue t (ec 2) 1 := by
  refine ⟨fun _ _ _ => rfl, [(1, 8), (2, 4), (3, 1)], fun e => e * 1e6, _, rfl, by simp, ?_, ?_⟩
  · refine C48_nodes (E := 2 * 1e6) (y := 4) ?_ [(1 * 1e6, 8)] [(3 * 1e6, 1)] (by simp [convertTable]) (by norm_num)
    refine ⟨by simp [convertTable], fun r hr => ?_⟩
    simp only [convertTable, List.map_cons, List.map_nil, List.mem_cons, List.not_mem_nil, or_false, id] at hr
    rcases hr with rfl | rfl | rfl <;> norm_num
  · have ht : PosTable [(1, 8), (2, 4), (3, 1)] := by
      refine ⟨by simp, fun r hr => ?_⟩
      simp only [List.mem_cons, List.not_mem_nil, or_false] at hr
      rcases hr with rfl | rfl | rfl <;> norm_num
    have hs : SortedTable [(1, 8), (2, 4), (3, 1)] := by
      simp [SortedTable]; norm_num
    exact ((C50_partial ht hs (E := 2 * 1e6) (by norm_num)).2 3 1 [(1, 8), (2, 4)] rfl (by norm_num)).2

/-! ## C92 -/

theorem run_append (W : StateWorld) (a b : List StateStep) : W.run (a ++ b) = (W.run a).run b := by
  simp [StateWorld.run]

/-- States are never changed by later steps. -/
theorem run_states (W : StateWorld) (steps : List StateStep) : ∃ new, (W.run steps).states = W.states ++ new := by
  induction steps using List.reverseRecOn with
  | nil => exact ⟨[], by simp [StateWorld.run]⟩
  | append_singleton l a ih =>
    obtain ⟨new, h⟩ := ih
    rw [run_append]
    cases a with
    | build J t p e d => exact ⟨new ++ [⟨J, t, p, e, d, pyNumSum (((W.run l).dicts d).map Prod.snd)⟩], by
        simp [StateWorld.run, StateWorld.step] at h ⊢; rw [h]; simp⟩
    | assign d k v => exact ⟨new, by simpa [StateWorld.run, StateWorld.step] using h⟩

theorem pyNumSum_eq (l : List ℝ) : pyNumSum l = l.sum := by
  unfold pyNumSum
  rw [List.sum_eq_foldl]

/-- C92: the width of a state is the sum of the partial widths at the time the state was built, whatever happens later. -/
theorem C92_width_at_construction (W : StateWorld) (pre post : List StateStep) (J : String) (t p : ℤ) (e : ℝ) (d : ℕ) :
    ∃ s, (W.run (pre ++ [.build J t p e d])).states.getLast? = some s ∧ s ∈ (W.run (pre ++ [.build J t p e d] ++ post)).states ∧
      s.width = (((W.run pre).dicts d).map Prod.snd).sum ∧ s.dict = d := by
  refine ⟨⟨J, t, p, e, d, pyNumSum (((W.run pre).dicts d).map Prod.snd)⟩, ?_, ?_, pyNumSum_eq _, rfl⟩
  · rw [run_append]; simp [StateWorld.run, StateWorld.step]
  · rw [run_append]
    obtain ⟨new, h⟩ := run_states (W.run (pre ++ [.build J t p e d])) post
    rw [h, run_append]
    simp [StateWorld.run, StateWorld.step]

/-- C92 is false: after an assignment the width is not the sum of the partial widths, and the branching ratios of resonances
built afterwards do not add up to one (here: two channels with ratios 1 and 1/2). -/
theorem C92_refuted :
    ∃ (W : StateWorld) (s : StateObj) (pw : List (String × ℝ)), (W.run [.build "1^-" 2 (-1) 2 0, .assign 0 "0^+" 2]).states = [s] ∧
      (W.run [.build "1^-" 2 (-1) 2 0, .assign 0 "0^+" 2]).dicts s.dict = pw ∧ s.width ≠ (pw.map Prod.snd).sum ∧
      (W.run [.build "1^-" 2 (-1) 2 0, .assign 0 "0^+" 2]).branching s "0^+" = .ok 1 ∧
      (W.run [.build "1^-" 2 (-1) 2 0, .assign 0 "0^+" 2]).branching s "2^+" = .ok (1 / 2) := by
  refine ⟨⟨fun _ => [("0^+", 1), ("2^+", 1)], []⟩, ⟨"1^-", 2, -1, 2, 0, pyNumSum [1, 1]⟩, [("0^+", 2), ("2^+", 1)], rfl, ?_, ?_, ?_, ?_⟩
  · simp [StateWorld.run, StateWorld.step, dictSet]
  · norm_num [pyNumSum]
  · norm_num [StateWorld.run, StateWorld.step, dictSet, StateWorld.branching, lookup, pyNumSum, bind, Except.bind]
  · have e1 : ("0^+" : String) ≠ "2^+" := by decide
    have e2 : ("2^+" : String) ≠ "0^+" := by decide
    norm_num [StateWorld.run, StateWorld.step, dictSet, StateWorld.branching, lookup, pyNumSum, bind, Except.bind, e1, e2]

theorem run_dict_untouched (W : StateWorld) (steps : List StateStep) (d : ℕ) (h : ∀ k v, StateStep.assign d k v ∉ steps) :
    (W.run steps).dicts d = W.dicts d := by
  induction steps using List.reverseRecOn with
  | nil => rfl
  | append_singleton l a ih =>
    rw [run_append]
    have ih' := ih fun k v hm => h k v (by simp [hm])
    cases a with
    | build J t p e d' => simpa [StateWorld.run, StateWorld.step] using ih'
    | assign d' k v =>
      have : d ≠ d' := by
        rintro rfl
        exact h k v (by simp)
      simp only [StateWorld.run, List.foldl_cons, List.foldl_nil, StateWorld.step] at ih' ⊢
      rw [Function.update_of_ne this]
      exact ih'

/-- C92, what holds: as long as no item of the dictionary is assigned after the state was built, its width is the sum of the
partial widths; other dictionaries may be edited. Missing: assignments to the dictionary of the state (`C92_refuted`). -/
theorem C92_partial (W : StateWorld) (pre post : List StateStep) (J : String) (t p : ℤ) (e : ℝ) (d : ℕ)
    (h : ∀ k v, StateStep.assign d k v ∉ post) :
    ∃ s, (W.run (pre ++ [.build J t p e d])).states.getLast? = some s ∧
      s ∈ (W.run (pre ++ [.build J t p e d] ++ post)).states ∧
      s.width = (((W.run (pre ++ [.build J t p e d] ++ post)).dicts s.dict).map Prod.snd).sum := by
  obtain ⟨s, h1, h2, h3, h4⟩ := C92_width_at_construction W pre post J t p e d
  refine ⟨s, h1, h2, ?_⟩
  rw [h3, h4, run_append, run_dict_untouched _ _ _ h, run_append]
  rfl

example : ∀ k v, StateStep.assign 0 k v ∉ [StateStep.assign 1 "0^+" 2, .build "2^+" 4 1 3 0] := by
  intro k v; simp

end Ries
