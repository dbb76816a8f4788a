import Verif.Props.CrossSection
import Verif.Props.Resonance

/-! # Property C01 for resonances: weighted sums of resonances add their values -/

namespace Ries

/-- C01: a weighted sum of resonances has a value at an energy exactly if each resonance has a (finite) value there, and the value
is the weighted sum of those values. -/
theorem C01_resonances (l : List (ℝ × Reso)) (E v : ℝ) :
    (Obj.wsum (l.map fun t => .leaf t.2.toLeaf) (l.map fun t => .num t.1)).call E = .ok (.num v) ↔
      ∃ w : List ℝ, List.Forall₂ (fun t x => t.2.call E = .ok (.fin x)) l w ∧ v = (List.zipWith (fun t x => t.1 * x) l w).sum := by
  have key : ∀ acc : ℝ, Obj.callLoop (l.map fun t => .leaf t.2.toLeaf) (l.map fun t => .num t.1) (.num acc) E = .ok (.num v) ↔
      ∃ w : List ℝ, List.Forall₂ (fun t x => t.2.call E = .ok (.fin x)) l w ∧
        v = acc + (List.zipWith (fun t x => t.1 * x) l w).sum := by
    induction l with
    | nil => intro acc; simp [Obj.callLoop, eq_comm]
    | cons t l ih =>
      intro acc
      simp only [List.map_cons]
      unfold Obj.callLoop
      cases hc : t.2.call E with
      | error e =>
        simp only [Obj.call, Reso.toLeaf, hc, bind, Except.bind, Except.map, reduceCtorEq, false_iff]
        rintro ⟨w, hw, -⟩
        cases hw with | cons h _ => simp [hc] at h
      | ok x =>
        cases x with
        | fin x =>
          have e : Obj.call (.leaf t.2.toLeaf) E = .ok (.num x) := by
            simp [Obj.call, Reso.toLeaf, hc, bind, Except.bind, Except.map]
          simp only [e, bind, Except.bind, Obj.mul, Obj.add]
          rw [ih]
          constructor
          · rintro ⟨w, hw, rfl⟩
            exact ⟨x :: w, .cons hc hw, by simp; ring⟩
          · rintro ⟨w, hw, rfl⟩
            cases hw with
            | @cons _ x' _ w h hw =>
              rw [hc] at h
              cases h
              exact ⟨w, hw, by simp; ring⟩
        | _ =>
          simp only [Obj.call, Reso.toLeaf, hc, bind, Except.bind, Except.map, reduceCtorEq, false_iff]
          rintro ⟨w, hw, -⟩
          cases hw with | cons h _ => simp [hc] at h
  unfold Obj.call
  rw [key 0]
  simp

/-- C01: adding two resonances gives an object whose value at an energy is the sum of the values of both resonances. -/
theorem C01_resonance_sum (r₁ r₂ : Reso) : ∃ s, Obj.add (.leaf r₁.toLeaf) (.leaf r₂.toLeaf) = .ok s ∧
    ∀ E v, s.call E = .ok (.num v) ↔ ∃ v₁ v₂, r₁.call E = .ok (.fin v₁) ∧ r₂.call E = .ok (.fin v₂) ∧ v = v₁ + v₂ := by
  refine ⟨.wsum [.leaf r₁.toLeaf, .leaf r₂.toLeaf] [.num 1, .num 1], rfl, fun E v => ?_⟩
  have := C01_resonances [(1, r₁), (1, r₂)] E v
  simp only [List.map_cons, List.map_nil] at this
  rw [this]
  constructor
  · rintro ⟨w, hw, rfl⟩
    cases hw with
    | @cons _ x _ w h hw => cases hw with
      | @cons _ y _ w h' hw => cases hw; exact ⟨x, y, h, h', by simp⟩
  · rintro ⟨x, y, h, h', rfl⟩
    exact ⟨[x, y], .cons h (.cons h' .nil), by simp⟩

example : ∃ (r : Reso) (s : Obj), Obj.add (.leaf r.toLeaf) (.leaf r.toLeaf) = .ok s ∧
    ∀ E, ∃ v, r.call E = .ok (.fin v) ∧ s.call E = .ok (.num (v + v)) := by
  obtain ⟨r, h⟩ := exIsBreitWigner
  obtain ⟨F, p, Q, hA⟩ := analytic_of (Or.inl h)
  obtain ⟨s, hs, hv⟩ := C01_resonance_sum r r
  exact ⟨r, s, hs, fun E => ⟨_, hA.sigma E, (hv E _).2 ⟨_, _, hA.sigma E, hA.sigma E, rfl⟩⟩⟩

end Ries
