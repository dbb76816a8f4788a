import Verif.Model.Edits
import Verif.Props.KleinNishina

/-! # C124: attributes changed after construction -/

namespace Ries

namespace KNObj

theorem edits_scale (o : KNObj) (es : List KNEdit) : (o.edits es).scaleFactor = o.scaleFactor := by
  induction es generalizing o with
  | nil => rfl
  | cons e es ih =>
    rw [show o.edits (e :: es) = (o.edit e).edits es from rfl, ih]
    cases e <;> rfl

theorem new_ok {k : PhysConst} {Z m : ℝ} {o : KNObj} (h : new k Z m = .ok o) :
    m ≠ 0 ∧ o = ⟨Z, m, (KN.mk Z m).scale k⟩ := by
  unfold new at h
  split_ifs at h with hm
  exact ⟨fun h0 => hm (by simp [h0]), (Except.ok.inj h).symm⟩

end KNObj

/-- C124, the class of Compton scattering, after any sequence of assignments: the cross sections are those of a new object with the
present attributes times `(Z₀ / Z) (m / m₀)²`, where `Z₀`, `m₀` are the values at construction. So they are those of a new object exactly
if this factor is 1; in particular if nothing has been changed. -/
theorem C124_compton_partial (k : PhysConst) {Z₀ m₀ : ℝ} {o : KNObj} (h : KNObj.new k Z₀ m₀ = .ok o) (es : List KNEdit)
    (hZ : 0 < (o.edits es).Z) (hm : 0 < (o.edits es).mc2) :
    ∃ n, KNObj.new k (o.edits es).Z (o.edits es).mc2 = .ok n ∧
      (∀ E, n.total E = (KN.mk (o.edits es).Z (o.edits es).mc2).total k E) ∧
      (∀ E θ φ, n.dOmega k E θ φ = (KN.mk (o.edits es).Z (o.edits es).mc2).dOmega k E θ φ) ∧
      (∀ E θ, n.dOmegaUnpol k E θ = (KN.mk (o.edits es).Z (o.edits es).mc2).dOmegaUnpol k E θ) ∧
      (∀ E, (o.edits es).total E = Z₀ / (o.edits es).Z * ((o.edits es).mc2 / m₀) ^ 2 * n.total E) ∧
      (∀ E θ φ, (o.edits es).dOmega k E θ φ = Z₀ / (o.edits es).Z * ((o.edits es).mc2 / m₀) ^ 2 * n.dOmega k E θ φ) ∧
      (∀ E θ, (o.edits es).dOmegaUnpol k E θ = Z₀ / (o.edits es).Z * ((o.edits es).mc2 / m₀) ^ 2 * n.dOmegaUnpol k E θ) ∧
      ∀ E, 0 < E → ((o.edits es).total E = n.total E ↔ Z₀ * (o.edits es).mc2 ^ 2 = (o.edits es).Z * m₀ ^ 2) := by
  obtain ⟨h0, rfl⟩ := KNObj.new_ok h
  have hs := KNObj.edits_scale ⟨Z₀, m₀, (KN.mk Z₀ m₀).scale k⟩ es
  generalize KNObj.edits ⟨Z₀, m₀, (KN.mk Z₀ m₀).scale k⟩ es = p at *
  obtain ⟨Z, m, s⟩ := p
  dsimp only at hs hZ hm
  subst hs
  have hf : (KN.mk Z₀ m₀).scale k = Z₀ / Z * (m / m₀) ^ 2 * (KN.mk Z m).scale k := by
    simp only [KN.scale]
    field_simp
  have htot : ∀ E, KNObj.total ⟨Z, m, (KN.mk Z₀ m₀).scale k⟩ E =
      Z₀ / Z * (m / m₀) ^ 2 * KNObj.total ⟨Z, m, (KN.mk Z m).scale k⟩ E := by
    intro E
    simp only [KNObj.total, hf]
    ring
  refine ⟨⟨Z, m, (KN.mk Z m).scale k⟩, ?_, fun _ => rfl, fun _ _ _ => rfl, fun _ _ => rfl, htot, fun E θ φ => ?_, fun E θ => ?_, fun E hE => ?_⟩
  · simp [KNObj.new, hm.ne', KN.scale]
  · simp only [KNObj.dOmega, hf]
    ring
  · simp only [KNObj.dOmegaUnpol, hf]
    ring
  · have hpos : 0 < KNObj.total ⟨Z, m, (KN.mk Z m).scale k⟩ E := (C44_total k ⟨Z, m⟩ hZ hm).1 E hE
    rw [htot, mul_eq_right₀ hpos.ne']
    constructor
    · intro h
      field_simp at h
      linarith
    · intro h
      field_simp
      linarith

/-- Electrons, changed to muons of three nuclei. -/
example (k : PhysConst) : ∃ o, KNObj.new k 1 0.511 = .ok o ∧ 0 < (o.edits [.setMc2 105.66, .setZ 3]).Z ∧
    (o.edits [.setMc2 105.66, .setZ 3]).mc2 = 105.66 := by
  refine ⟨_, by rw [KNObj.new, if_neg (by norm_num)], ?_, ?_⟩ <;> norm_num [KNObj.edits, KNObj.edit]

/-- C124, thermal motion: a `MaxwellBoltzmann` object behaves like a new one with the present attributes after any sequence of
assignments, namely like one with the last assigned values. -/
theorem C124_thermal_partial (k : PhysConst) (o : MBObj) (es : List MBEdit) (a t E : ℝ) :
    ((o.edits es).edits [.setAmu a, .setTemperature t]).width k E = getDopplerWidth k a t E := rfl

namespace EditedState

theorem edits_width (o : EditedState) (es : List (String × ℝ)) : (o.edits es).width = o.width := by
  induction es generalizing o with
  | nil => rfl
  | cons e es ih => rw [show o.edits (e :: es) = (o.edit e).edits es from rfl, ih]; rfl

end EditedState

theorem dictGet_of_mem {d : List (String × ℝ)} (hd : (d.map Prod.fst).Nodup) {p : String × ℝ} (hp : p ∈ d) : dictGet p.1 d = .ok p.2 := by
  induction d with
  | nil => simp at hp
  | cons q d ih =>
    rw [List.map_cons, List.nodup_cons] at hd
    rcases List.mem_cons.1 hp with rfl | hp
    · simp [dictGet]
    · have : q.1 ≠ p.1 := fun h => hd.1 (h ▸ List.mem_map_of_mem hp)
      simp [dictGet, this, ih hd.2 hp]

/-- an assignment to an item keeps the keys of a dictionary different -/
theorem dictSet_nodup {d : List (String × ℝ)} (hd : (d.map Prod.fst).Nodup) (k : String) (x : ℝ) :
    ((dictSet d k x).map Prod.fst).Nodup := by
  unfold dictSet
  split_ifs with h
  · rw [List.map_map]
    have : (Prod.fst ∘ fun p : String × ℝ => if p.1 = k then (k, x) else p) = Prod.fst := by
      funext p
      simp only [Function.comp]
      split_ifs with h
      · exact h.symm
      · rfl
    rwa [this]
  · rw [List.map_append, List.nodup_append]
    refine ⟨hd, by simp, fun a ha b hb hab => h ?_⟩
    rw [List.map_singleton, List.mem_singleton] at hb
    rwa [hab, hb] at ha

theorem EditedState.edits_nodup (o : EditedState) (ho : (o.partialWidths.map Prod.fst).Nodup) (es : List (String × ℝ)) :
    ((o.edits es).partialWidths.map Prod.fst).Nodup := by
  induction es generalizing o with
  | nil => exact ho
  | cons e es ih => exact ih (o.edit e) (dictSet_nodup ho _ _)

/-- C124, excited states, after any sequence of assignments to partial widths: the branching ratios of resonances that are constructed
afterwards exist for all entries, and they are the present partial widths divided by the total width at construction. Their sum is 1
exactly if the assignments have not changed the total. -/
theorem C124_states_partial (pw es : List (String × ℝ)) (hk : (pw.map Prod.fst).Nodup) (h0 : (pw.map Prod.snd).sum ≠ 0) :
    ∃ r : String × ℝ → ℝ, (∀ p ∈ ((EditedState.new pw).edits es).partialWidths,
        ((EditedState.new pw).edits es).ratio p.1 = .ok (r p) ∧ r p = p.2 / (pw.map Prod.snd).sum) ∧
      ((((EditedState.new pw).edits es).partialWidths.map r).sum = 1 ↔
        (((EditedState.new pw).edits es).partialWidths.map Prod.snd).sum = (pw.map Prod.snd).sum) := by
  refine ⟨fun p => p.2 / (pw.map Prod.snd).sum, fun p hp => ⟨?_, rfl⟩, ?_⟩
  · have hw : ((EditedState.new pw).edits es).width = (pw.map Prod.snd).sum := EditedState.edits_width _ es
    have hn := EditedState.edits_nodup (EditedState.new pw) hk es
    rw [EditedState.ratio, dictGet_of_mem hn hp]
    show fdiv p.2 _ = _
    rw [hw, fdiv, if_neg h0]
  · generalize ((EditedState.new pw).edits es).partialWidths = l
    have : (l.map fun p => p.2 / (pw.map Prod.snd).sum) = (l.map Prod.snd).map (· / (pw.map Prod.snd).sum) := by
      rw [List.map_map]; rfl
    rw [this]
    have hs : ∀ m : List ℝ, (m.map (· / (pw.map Prod.snd).sum)).sum = m.sum / (pw.map Prod.snd).sum := by
      intro m
      induction m with
      | nil => simp
      | cons a m ih => rw [List.map_cons, List.sum_cons, List.sum_cons, ih, add_div]
    rw [hs, div_eq_one_iff_eq h0]

/-- A state with decays to two levels; one of the widths is doubled and a third decay is added. -/
example : ((EditedState.new [("0^+", 1), ("2^+", 3)]).edits [("2^+", 6), ("4^+", 2)]).partialWidths = [("0^+", 1), ("2^+", 6), ("4^+", 2)] ∧
    (([("0^+", 1), ("2^+", 3)] : List (String × ℝ)).map Prod.fst).Nodup := by
  constructor <;> simp [EditedState.new, EditedState.edits, EditedState.edit, dictSet]

/-- C124 is false: changing the number of electrons has no effect on Compton cross sections; and changing the abundances of an element
has no effect on its mass; and when the only partial width of a state has been doubled, the branching ratio of a resonance constructed
afterwards is 2. -/
theorem C124_refuted :
    (∀ (k : PhysConst) (m E : ℝ), 0 < m → 0 < E → ∃ o n, KNObj.new k 1 m = .ok o ∧ KNObj.new k 2 m = .ok n ∧ (o.edit (.setZ 2)).Z = n.Z ∧
      (o.edit (.setZ 2)).mc2 = n.mc2 ∧ (o.edit (.setZ 2)).total E = o.total E ∧ (o.edit (.setZ 2)).total E < n.total E) ∧
    (∃ (W : ElemWorld) (o n : ElemObj), W.new 0 0 = .ok o ∧
      (W.edits [.setAbundance 0 "10B" 1, .setAbundance 0 "11B" 0]).new o.abundances o.isotopes = .ok n ∧ o.amu ≠ n.amu) ∧
    ∀ x : ℝ, x ≠ 0 → ((EditedState.new [("0^+", x)]).edit ("0^+", 2 * x)).ratio "0^+" = .ok 2 ∧
      (EditedState.new [("0^+", 2 * x)]).ratio "0^+" = .ok 1 := by
  refine ⟨?_, ?_, fun x hx => ?_⟩
  · intro k m E hm hE
    have h1 : KNObj.new k 1 m = .ok ⟨1, m, (KN.mk 1 m).scale k⟩ := by simp [KNObj.new, hm.ne', KN.scale]
    have h2 : KNObj.new k 2 m = .ok ⟨2, m, (KN.mk 2 m).scale k⟩ := by simp [KNObj.new, hm.ne', KN.scale]
    refine ⟨_, _, h1, h2, rfl, rfl, rfl, ?_⟩
    have hpos : 0 < KNObj.total ⟨1, m, (KN.mk 1 m).scale k⟩ E := (C44_total k ⟨1, m⟩ one_pos hm).1 E hE
    have e : KNObj.total ⟨2, m, (KN.mk 2 m).scale k⟩ E = 2 * KNObj.total ⟨1, m, (KN.mk 1 m).scale k⟩ E := by
      simp only [KNObj.total, KN.scale]
      ring
    show KNObj.total ⟨1, m, (KN.mk 1 m).scale k⟩ E < _
    rw [e]
    linarith
  · refine ⟨⟨fun _ => [("10B", 1 / 5), ("11B", 4 / 5)], fun _ => [("10B", some 10), ("11B", some 11)]⟩, ⟨0, 0, 54 / 5⟩, ⟨0, 0, 10⟩, ?_, ?_, ?_⟩
    · simp [ElemWorld.new, amuFromComposition, amuTerm, dictGet, bind, Except.bind, pure, Except.pure]
      norm_num
    · simp [ElemWorld.new, ElemWorld.edits, ElemWorld.edit, dictSet, amuFromComposition, amuTerm, dictGet, bind, Except.bind, pure, Except.pure]
    · norm_num
  · simp [EditedState.new, EditedState.edit, EditedState.ratio, dictSet, dictGet, fdiv, hx, bind, Except.bind]

end Ries
