import Verif.Lemmas.ShippedXrmacMono

/-! # The rows of the shipped tables above the last absorption edge -/

namespace Ries

set_option maxRecDepth 100000

/-- the highest energy that is listed twice, 0 if there is none -/
def lastEdge : List Line → ℚ
  | p :: q :: s => if lastEdge (q :: s) = 0 then (if p.energy.value = q.energy.value then p.energy.value else 0)
      else lastEdge (q :: s)
  | _ => 0

/-- the values fall less than with the power `-n/5` of the energy beyond the energy `A` -/
def fallLines (n : ℕ) (A : ℚ) (ls : List Line) : Prop := ls.IsChain fun p q => q.energy.value ≤ A ∨
  (p.energy.value < q.energy.value ∧
    p.mu.value ^ 5 * p.energy.value ^ n < q.mu.value ^ 5 * q.energy.value ^ n)

/-- the values rise less than with the power `1/3` of the energy beyond the energy `A` -/
def riseLines (A : ℚ) (ls : List Line) : Prop := ls.IsChain fun p q => q.energy.value ≤ A ∨
  (p.energy.value < q.energy.value ∧
    q.mu.value ^ 3 * p.energy.value < p.mu.value ^ 3 * q.energy.value)

instance (n : ℕ) (A : ℚ) (ls : List Line) : Decidable (fallLines n A ls) := inferInstanceAs (Decidable (List.IsChain _ _))
instance (A : ℚ) (ls : List Line) : Decidable (riseLines A ls) := inferInstanceAs (Decidable (List.IsChain _ _))

/-- the checks above the last edge, which is not above 0.115606 MeV: decrease to 4 MeV (not thulium), and the limits of the slope (not chromium, thulium) -/
def checkEdges (Z : ℕ) : Bool :=
  let ls := xrmacLines Z
  let e := lastEdge ls
  (Z == 69 || decide (decrLines e 4 ls)) && (Z == 24 || decide (fallLines (if Z = 42 then 25 else 16) e ls)) &&
    (Z == 69 || decide (riseLines e ls)) && decide (e ≤ 0.115606)

theorem shipped_edges1 : ∀ Z ∈ List.range' 1 40, checkEdges Z = true := by decide +kernel
theorem shipped_edges2 : ∀ Z ∈ List.range' 41 26, checkEdges Z = true := by decide +kernel
theorem shipped_edges3 : ∀ Z ∈ List.range' 67 26, checkEdges Z = true := by decide +kernel

theorem shipped_edges {Z : ℕ} (hZ : Z ∈ List.range' 1 92) : checkEdges Z = true := by
  rw [List.mem_range'_1] at hZ
  by_cases h1 : Z < 41
  · exact shipped_edges1 Z (List.mem_range'_1.2 ⟨hZ.1, by omega⟩)
  · by_cases h2 : Z < 67
    · exact shipped_edges2 Z (List.mem_range'_1.2 ⟨by omega, by omega⟩)
    · exact shipped_edges3 Z (List.mem_range'_1.2 ⟨by omega, by omega⟩)

/-- the rows of thulium and of chromium at and above the K edge -/
theorem thulium_lines : (((xrmacLines 69)[35]?.map fun l => (l.energy.value, l.mu.value)) = some ((0.0593896 : ℚ), (12 : ℚ)) ∧
    (((xrmacLines 69).drop 36).all fun l => decide (0.0593896 < l.energy.value)) = true) ∧
    (((xrmacLines 69)[36]?.map fun l => (l.energy.value, l.mu.value)) = some ((0.06 : ℚ), (14.09 : ℚ)) ∧
    (((xrmacLines 69).drop 37).all fun l => decide (0.06 < l.energy.value)) = true) ∧
    lastEdge (xrmacLines 69) = 0.0593896 := by
  decide +kernel

theorem chromium_lines : (((xrmacLines 24)[7]?.map fun l => (l.energy.value, l.mu.value)) = some ((0.0059892 : ℚ), (597.7 : ℚ)) ∧
    (((xrmacLines 24).drop 8).all fun l => decide (0.0059892 < l.energy.value)) = true) ∧
    (((xrmacLines 24)[8]?.map fun l => (l.energy.value, l.mu.value)) = some ((0.006 : ℚ), (516 : ℚ)) ∧
    (((xrmacLines 24).drop 9).all fun l => decide (0.006 < l.energy.value)) = true) ∧
    lastEdge (xrmacLines 24) = 0.0059892 := by
  decide +kernel

end Ries
