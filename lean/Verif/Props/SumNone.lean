import Verif.Props.PseudoVoigt
import Verif.Props.Grid

/-! # C34: sums of cross sections when one of the quantile searches returns `None` -/

namespace Ries

/-- the constituent fails with the `TypeError` of an iteration over `None` -/
theorem toLeaf_grid_none {r : Reso} {req : Req} {n : ℤ} (h : r.probGrid req n = .ok none) : r.toLeaf.grid req n = .error .typeError := by
  simp [Reso.toLeaf, h, Bind.bind, Except.bind]

/-- C34: a resonance whose quantile search returns `None` spoils the grid of every sum it belongs to. A sum never has a grid, and the exception
is a `TypeError` unless another constituent fails for another reason. -/
theorem C34_sum_none {r : Reso} {req : Req} {n : ℤ} (h : r.probGrid req n = .ok none) (rs : List Obj) (ws : List Obj)
    (hr : Obj.leaf r.toLeaf ∈ rs) :
    (∃ e, (Obj.wsum rs ws).probGrid req n = .error e) ∧
    ((∀ o ∈ rs, (∃ g, o.probGrid req n = .ok g) ∨ o.probGrid req n = .error .typeError) →
      (Obj.wsum rs ws).probGrid req n = .error .typeError) := by
  have hl : (Obj.leaf r.toLeaf).probGrid req n = .error .typeError := by rw [Obj.probGrid, toLeaf_grid_none h]
  have key : ∀ os : List Obj, Obj.leaf r.toLeaf ∈ os → (∃ e, Obj.probGrids os req n = .error e) ∧
      ((∀ o ∈ os, (∃ g, o.probGrid req n = .ok g) ∨ o.probGrid req n = .error .typeError) → Obj.probGrids os req n = .error .typeError) := by
    intro os
    induction os with
    | nil => intro h; cases h
    | cons o os ih =>
      intro hm
      cases ho : o.probGrid req n with
      | error e =>
        refine ⟨⟨e, by simp [Obj.probGrids, ho, Bind.bind, Except.bind]⟩, fun ha => ?_⟩
        rcases ha o List.mem_cons_self with ⟨g, hg⟩ | he
        · rw [ho] at hg; cases hg
        · rw [ho] at he; cases he
          simp [Obj.probGrids, ho, Bind.bind, Except.bind]
      | ok g =>
        rcases List.mem_cons.1 hm with rfl | hm
        · rw [hl] at ho; cases ho
        · obtain ⟨⟨e, he⟩, h2⟩ := ih hm
          refine ⟨⟨e, by simp [Obj.probGrids, ho, he, Bind.bind, Except.bind]⟩, fun ha => ?_⟩
          simp [Obj.probGrids, ho, h2 fun o' ho' => ha o' (List.mem_cons_of_mem _ ho'), Bind.bind, Except.bind]
  obtain ⟨⟨e, he⟩, h2⟩ := key rs hr
  refine ⟨⟨e, by simp [Obj.probGrid, he, Bind.bind, Except.bind]⟩, fun ha => ?_⟩
  simp [Obj.probGrid, h2 ha, Bind.bind, Except.bind]

example : ∃ r : Reso, r.probGrid (.cov 1) 3 = .ok none := by
  obtain ⟨r, -, h⟩ := C34_grid_none
  exact ⟨r, h⟩

end Ries
