import Verif.Props.XrmacModule

/-! # The shipped attenuation tables of neighbouring elements at energies above all edges -/

namespace Ries

open Text

set_option maxRecDepth 100000

/-- the rows from 0.15 MeV on -/
def highLines (Z : ℕ) : List Line := (xrmacLines Z).dropWhile fun l => decide (l.energy.value < 0.15)

/-- the same energies, and row by row, the value times the mass `m` is smaller than the value times the mass `n` -/
def rowsBelow (m n : ℚ) : List Line → List Line → Bool
  | p :: s, q :: t => decide (p.energy.value = q.energy.value) && decide (m * p.mu.value < n * q.mu.value) &&
      rowsBelow m n s t
  | [], [] => true
  | _, _ => false

/-- row by row, an atom of `b` attenuates more than an atom of `a` -/
def lighter (a b : ℕ) : Bool := rowsBelow (shippedElement a).amu (shippedElement b).amu (highLines a) (highLines b)

/-- the elements whose mass is not read as zero -/
def withMass : List ℕ :=
  [1, 2, 3, 5, 6, 7, 8, 10, 12, 14, 16, 17, 18, 19, 20] ++ 22 :: ([23, 24, 26, 28, 29, 30, 31, 32, 34, 35, 36, 37, 38] ++
    40 :: ([42, 44, 46, 47, 48, 49, 50, 51] ++ 52 :: ([54, 56, 57, 58, 60, 62, 63, 64, 66] ++
      68 :: [70, 71, 72, 73, 74, 75, 76, 77, 78, 80, 81, 82, 92])))

theorem lighter1 : List.IsChain (fun a b => lighter a b = true)
    ([1, 2, 3, 5, 6, 7, 8, 10, 12, 14, 16, 17, 18, 19, 20] ++ [22]) := by decide +kernel
theorem lighter2 : List.IsChain (fun a b => lighter a b = true)
    (22 :: ([23, 24, 26, 28, 29, 30, 31, 32, 34, 35, 36, 37, 38] ++ [40])) := by decide +kernel
theorem lighter3 : List.IsChain (fun a b => lighter a b = true)
    (40 :: ([42, 44, 46, 47, 48, 49, 50, 51] ++ [52])) := by decide +kernel
theorem lighter4 : List.IsChain (fun a b => lighter a b = true)
    (52 :: ([54, 56, 57, 58, 60, 62, 63, 64, 66] ++ [68])) := by decide +kernel
theorem lighter5 : List.IsChain (fun a b => lighter a b = true)
    (68 :: [70, 71, 72, 73, 74, 75, 76, 77, 78, 80, 81, 82, 92]) := by decide +kernel

theorem rowsBelow_trans {l m n : ℚ} : ∀ {s t u : List Line}, rowsBelow l m s t = true → rowsBelow m n t u = true →
    rowsBelow l n s u = true
  | [], [], [], _, _ => rfl
  | p :: s, q :: t, r :: u, h1, h2 => by
    simp only [rowsBelow, Bool.and_eq_true, decide_eq_true_eq] at h1 h2 ⊢
    exact ⟨⟨h1.1.1.trans h2.1.1, h1.1.2.trans h2.1.2⟩, rowsBelow_trans h1.2 h2.2⟩

theorem lighter_trans : IsTrans ℕ fun a b => lighter a b = true := ⟨fun _ _ _ h1 h2 => rowsBelow_trans h1 h2⟩

/-- an earlier element of the list is lighter -/
theorem withMass_pairwise : withMass.Pairwise fun a b => lighter a b = true := by
  have := lighter_trans
  refine List.isChain_iff_pairwise.1 ?_
  refine List.isChain_split.2 ⟨lighter1, ?_⟩
  rw [← List.cons_append]
  refine List.isChain_split.2 ⟨lighter2, ?_⟩
  rw [← List.cons_append]
  refine List.isChain_split.2 ⟨lighter3, ?_⟩
  rw [← List.cons_append]
  exact List.isChain_split.2 ⟨lighter4, lighter5⟩

/-- the first of the rows -/
theorem highLines_head : ∀ Z ∈ List.range' 1 92, ((highLines Z).head?.any fun l => decide (l.energy.value = 0.15)) = true := by
  decide +kernel

end Ries
