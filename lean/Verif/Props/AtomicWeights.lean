import Verif.Props.NaturalElements

/-!
# C179: masses of the natural elements and standard atomic weights

The data file also lists the standard atomic weight of every element, in a line that the reader skips.
-/

namespace Ries

open Text

set_option maxRecDepth 100000

/-- a number written in decimal digits -/
def digits? (s : Str) : Option ℕ :=
  if s ≠ [] ∧ s.all Char.isDigit then some (s.foldl (fun n c => 10 * n + (c.toNat - 48)) 0) else none

/-- digits after the decimal point -/
def decimals (s : Str) : Str := (s.dropWhile (· ≠ '.')).drop 1

/-- a decimal number without sign and exponent -/
def decimal? (s : Str) : Option ℚ :=
  (digits? (s.takeWhile (· ≠ '.') ++ decimals s)).map fun n => (n : ℚ) / 10 ^ (decimals s).length

/-- A standard atomic weight: an interval, or a value with an uncertainty. -/
inductive AtomicWeight
  | between (a b : ℚ)
  | about (v u : ℚ)
  deriving DecidableEq

/-- The notations `[a,b]` and `v(u)`, where `u` counts units of the last digit of `v`. The notation `[A]` of the mass number of one isotope
is no weight. -/
def atomicWeight? (s : Str) : Option AtomicWeight :=
  match s with
  | '[' :: s =>
      match decimal? (s.takeWhile (· ≠ ',')), decimal? (((s.dropWhile (· ≠ ',')).drop 1).takeWhile (· ≠ ']')) with
      | some a, some b => some (.between a b)
      | _, _ => none
  | s =>
      match decimal? (s.takeWhile (· ≠ '(')), digits? (((s.dropWhile (· ≠ '(')).drop 1).takeWhile (· ≠ ')')) with
      | some v, some u => some (.about v (u / 10 ^ (decimals (s.takeWhile (· ≠ '('))).length))
      | _, _ => none

/-- in the interval, or within 2.5 times the uncertainty -/
def AtomicWeight.Agrees : AtomicWeight → ℚ → Prop
  | .between a b, m => a ≤ m ∧ m ≤ b
  | .about v u, m => |m - v| ≤ 5 / 2 * u

instance (w : AtomicWeight) (m : ℚ) : Decidable (w.Agrees m) := by
  cases w <;> unfold AtomicWeight.Agrees <;> infer_instance

/-- the title of the line with the standard atomic weight -/
def weightTitle : Str := "Standard Atomic Weight = ".toList

/-- the standard atomic weights in the paragraphs of an element, as text -/
def listedWeights (Z : ℕ) : List Str :=
  (shippedNist.isotopesOf Z).flatMap fun p => (p.rest.filter fun l => weightTitle.isPrefixOf l).map fun l => l.drop weightTitle.length

/-- all paragraphs of the element list a weight with which the mass agrees -/
def AgreesWithListed (Z : ℕ) (m : ℚ) : Prop :=
  (listedWeights Z).length = (shippedNist.isotopesOf Z).length ∧
    ∀ s ∈ listedWeights Z, ∃ w, atomicWeight? s = some w ∧ w.Agrees m

/-- the same as a computation -/
def agreesB (Z : ℕ) (m : ℚ) : Bool :=
  (listedWeights Z).length == (shippedNist.isotopesOf Z).length &&
    (listedWeights Z).all fun s => (atomicWeight? s).any fun w => decide (w.Agrees m)

theorem agreesB_spec {Z : ℕ} {m : ℚ} (h : agreesB Z m = true) : AgreesWithListed Z m := by
  unfold agreesB at h
  simp only [Bool.and_eq_true, beq_iff_eq, List.all_eq_true] at h
  refine ⟨h.1, fun s hs => ?_⟩
  have := h.2 s hs
  cases hw : atomicWeight? s with
  | none => rw [hw] at this; simp at this
  | some w => rw [hw] at this; exact ⟨w, rfl, by simpa using this⟩

/-- The notations are read as intended. -/
example : atomicWeight? "[1.00784,1.00811]".toList = some (.between 1.00784 1.00811) ∧
    atomicWeight? "4.002602(2)".toList = some (.about 4.002602 0.000002) ∧ atomicWeight? "[98]".toList = none ∧
    listedWeights 2 = ["4.002602(2)".toList, "4.002602(2)".toList] := by decide +kernel

/-- everything at once -/
def checkWeight (Z : ℕ) : Bool :=
  let ps := shippedNist.isotopesOf Z
  if decide (Tabulated Z) && !(singleIsotope.contains Z) then
    decide ((ps.map fun p => p.ab).sum = 1) && agreesB Z (ps.map fun p => p.mass * p.ab).sum
  else if singleIsotope.contains Z then
    decide ((ps.map fun p => p.ab).sum = 0) && (ps.any fun p => p.comp.written == some 1 && agreesB Z (writtenMass p))
  else (listedWeights Z).all fun s => (atomicWeight? s).isNone

theorem shipped_weights1 : ∀ Z ∈ List.range' 1 40, checkWeight Z = true := by decide +kernel
theorem shipped_weights2 : ∀ Z ∈ List.range' 41 40, checkWeight Z = true := by decide +kernel
theorem shipped_weights3 : ∀ Z ∈ List.range' 81 38, checkWeight Z = true := by decide +kernel

theorem shipped_weights {Z : ℕ} (hZ : Z ∈ List.range' 1 118) : checkWeight Z = true := by
  rw [List.mem_range'_1] at hZ
  by_cases h1 : Z < 41
  · exact shipped_weights1 Z (List.mem_range'_1.2 ⟨by omega, by omega⟩)
  by_cases h2 : Z < 81
  · exact shipped_weights2 Z (List.mem_range'_1.2 ⟨by omega, by omega⟩)
  exact shipped_weights3 Z (List.mem_range'_1.2 ⟨by omega, by omega⟩)

theorem single_tabulated : ∀ Z ∈ singleIsotope, Tabulated Z := by decide +kernel

theorem single_range : ∀ Z ∈ singleIsotope, Z ∈ List.range' 1 118 := by decide +kernel

/-- C179, proved part: the elements with a tabulated composition, except for 22 of them, have abundances that add up to exactly one,
and a mass that agrees with the standard atomic weight. The elements that are not tabulated have no standard atomic weight. Missing: the 22
elements, for which it is false (`C179_refuted`). -/
theorem C179_partial : ∃ syms els,
    naturalElements shippedNist.render shippedDensities.render = .ok (syms, els) ∧
    ∀ Z ∈ List.range' 1 118, ∃ e, dictGet (symbolOf Z) els = .ok e ∧
      (Tabulated Z → Z ∉ singleIsotope → (e.abundances.map Prod.snd).sum = 1 ∧ AgreesWithListed Z e.amu) ∧
      (¬ Tabulated Z → ∀ s ∈ listedWeights Z, atomicWeight? s = none) := by
  obtain ⟨syms, h1, h2⟩ := naturalElements_ok shipped_importable
  refine ⟨syms, _, h1, fun Z hZ => ⟨expectedElement shippedNist shippedDensities symbolOf Z,
    dictGet_eq (by rw [List.map_map]; exact shipped_distinct) (List.mem_map.2 ⟨Z, hZ, rfl⟩), ?_⟩⟩
  have h := shipped_weights hZ
  unfold checkWeight at h
  have hab : (expectedElement shippedNist shippedDensities symbolOf Z).abundances.map Prod.snd =
      (shippedNist.isotopesOf Z).map fun p => p.ab := by
    simp only [expectedElement, List.map_map]
    rfl
  rw [hab]
  split_ifs at h with hc hs
  · simp only [Bool.and_eq_true, decide_eq_true_eq, Bool.not_eq_true', List.contains_eq_mem,
      decide_eq_false_iff_not] at hc
    simp only [Bool.and_eq_true, decide_eq_true_eq] at h
    exact ⟨fun _ _ => ⟨h.1, agreesB_spec h.2⟩, fun h3 => absurd hc.1 h3⟩
  · simp only [List.contains_eq_mem, decide_eq_true_eq] at hs
    exact ⟨fun _ h4 => absurd hs h4, fun h3 => absurd (single_tabulated Z hs) h3⟩
  · simp only [Bool.and_eq_true, decide_eq_true_eq, Bool.not_eq_true', List.contains_eq_mem,
      decide_eq_false_iff_not] at hc hs
    refine ⟨fun h3 h4 => absurd ⟨h3, h4⟩ hc, fun _ s hs' => ?_⟩
    rw [List.all_eq_true] at h
    simpa using h s hs'

/-- The 22 elements: the file lists a single isotope with abundance 1, whose mass agrees with the standard atomic weight; the element
gets abundances that add up to zero, and the mass zero. -/
theorem C179_single_isotope : ∃ syms els,
    naturalElements shippedNist.render shippedDensities.render = .ok (syms, els) ∧
    ∀ Z ∈ singleIsotope, ∃ e, dictGet (symbolOf Z) els = .ok e ∧ (e.abundances.map Prod.snd).sum = 0 ∧ e.amu = 0 ∧
      ∃ p ∈ shippedNist.isotopesOf Z, p.comp.written = some 1 ∧ AgreesWithListed Z (writtenMass p) := by
  obtain ⟨syms, h1, h2⟩ := naturalElements_ok shipped_importable
  refine ⟨syms, _, h1, fun Z hZ' => ?_⟩
  have hZ : Z ∈ List.range' 1 118 := single_range Z hZ'
  refine ⟨expectedElement shippedNist shippedDensities symbolOf Z,
    dictGet_eq (by rw [List.map_map]; exact shipped_distinct) (List.mem_map.2 ⟨Z, hZ, rfl⟩), ?_⟩
  have hab : (expectedElement shippedNist shippedDensities symbolOf Z).abundances.map Prod.snd =
      (shippedNist.isotopesOf Z).map fun p => p.ab := by
    simp only [expectedElement, List.map_map]
    rfl
  have hc : singleIsotope.contains Z = true := by simpa using hZ'
  have h := shipped_weights hZ
  unfold checkWeight at h
  have hm := shipped_masses Z hZ
  unfold checkMass at hm
  simp only [hc, Bool.not_true, Bool.and_false, Bool.false_eq_true, if_false, if_true, Bool.and_eq_true, decide_eq_true_eq,
    List.any_eq_true, beq_iff_eq] at h hm
  obtain ⟨h3, p, hp, h4, h5⟩ := h
  rw [hab]
  exact ⟨h3, hm, p, hp, h4, agreesB_spec h5⟩

/-- C179 is false: aluminium. -/
theorem C179_refuted : ∃ syms els e, naturalElements shippedNist.render shippedDensities.render = .ok (syms, els) ∧
    dictGet "Al".toList els = .ok e ∧ Tabulated 13 ∧ e.amu = 0 ∧ ¬ AgreesWithListed 13 e.amu := by
  obtain ⟨syms, els, h1, h2⟩ := C179_single_isotope
  obtain ⟨e, h3, -, h4, -⟩ := h2 13 (by decide)
  have hs : symbolOf 13 = "Al".toList := by decide +kernel
  rw [hs] at h3
  refine ⟨syms, els, e, h1, h3, by decide +kernel, h4, ?_⟩
  rw [h4]
  rintro ⟨-, h5⟩
  have hl : listedWeights 13 = ["26.9815385(7)".toList] := by decide +kernel
  obtain ⟨w, h6, h7⟩ := h5 "26.9815385(7)".toList (by rw [hl]; simp)
  have hw : atomicWeight? "26.9815385(7)".toList = some (.about 26.9815385 0.0000007) := by decide +kernel
  rw [hw] at h6
  obtain rfl := Option.some.inj h6
  revert h7
  decide +kernel

/-- There are 62 elements with a right mass, for example hydrogen (interval) and uranium (value). -/
example : ((List.range' 1 118).filter fun Z => decide (Tabulated Z) && !singleIsotope.contains Z).length = 62 ∧ Tabulated 1 ∧
    1 ∉ singleIsotope ∧ Tabulated 92 ∧ listedWeights 92 ≠ [] ∧ ¬ Tabulated 43 ∧ listedWeights 43 ≠ [] := by decide +kernel

end Ries
