import Verif.Spec.KNArrays
import Verif.Lemmas.KNArrays
import Verif.Spec.Examples

/-! # C118: kinematics and differential cross sections of Compton scattering on arrays -/

namespace Ries

open Arr

variable {ι : Type}

/-- C118: the functions of energies and angles, for arguments that are numbers or arrays of equal length in any combination (angles also
lists): the entries of the result are the values for the entries of the arguments. -/
theorem C118_angles (k : PhysConst) (s : KN) (h : Store) (I : List ι) {e t f : ι → ℝ} {E θ φ : AVal} (hE : Shows h E (I.map e))
    (hθ : ShowsAngle h θ (I.map t)) (hφ : ShowsAngle h φ (I.map f)) :
    EntryByEntry h [E] (comptonEdgeA k E) (I.map fun i => KN.comptonEdge k (e i)) ∧
    EntryByEntry h [E, θ] (epOverEA k E θ) (I.map fun i => KN.EpOverE k (e i) (t i)) ∧
    EntryByEntry h [E, θ, φ] (dOmegaA k s E θ φ) (I.map fun i => s.dOmega k (e i) (t i) (f i)) ∧
    EntryByEntry h [E, θ] (dOmegaUnpolA k s E θ) (I.map fun i => s.dOmegaUnpol k (e i) (t i)) ∧
    EntryByEntry h [E, θ] (dThetaA k s E θ) (I.map fun i => s.dTheta k (e i) (t i)) := by
  obtain ⟨bE, aE⟩ := Arg.exists hE
  obtain ⟨bθ, aθ, rθ⟩ := Angle.exists hθ
  obtain ⟨bφ, aφ, rφ⟩ := Angle.exists hφ
  refine ⟨(comptonEdgeA_computes aE).entry (fresh_lift2 _ (by keep) (by keep)) ?_, (epOverEA_computes aE aθ).entry (fresh_lift2 _ (by keep) (by keep)) ?_,
    (dOmegaA_computes aE aθ aφ).entry (fresh_bind (keeps_epOverEA _ _) fun _ => fresh_lift2 _ (by keep) (by keep)) ?_,
    (dOmegaUnpolA_computes aE aθ).entry (fresh_bind (keeps_epOverEA _ _) fun _ => fresh_lift2 _ (by keep) (by keep)) ?_,
    (dThetaA_computes aE aθ).entry (fresh_lift2 _ (keeps_dOmegaUnpolA _ _) (by keep)) ?_⟩ <;>
  simp only [Bool.or_eq_true, aE.isRef, rθ, rφ, IsSeq, List.mem_cons, List.not_mem_nil, or_false, exists_eq_or_imp, exists_eq_left, or_assoc]

/-- C118: the functions of the energies before and after the scattering, likewise. -/
theorem C118_energies (k : PhysConst) (s : KN) (h : Store) (I : List ι) {e p f : ι → ℝ} {E Ep φ : AVal} (hE : Shows h E (I.map e))
    (hp : Shows h Ep (I.map p)) (hφ : ShowsAngle h φ (I.map f)) :
    EntryByEntry h [E, Ep] (thetaA k E Ep) (I.map fun i => KN.theta k (e i) (p i)) ∧
    EntryByEntry h [E, Ep, φ] (dEpdPhiA k s E Ep φ) (I.map fun i => s.dEpdPhi k (e i) (p i) (f i)) ∧
    EntryByEntry h [E, Ep] (dEpA k s E Ep) (I.map fun i => s.dEp k (e i) (p i)) := by
  obtain ⟨bE, aE⟩ := Arg.exists hE
  obtain ⟨bp, ap⟩ := Arg.exists hp
  obtain ⟨bφ, aφ, rφ⟩ := Angle.exists hφ
  refine ⟨(thetaA_computes aE ap).entry (fresh_lift1 _ (by keep)) ?_, (dEpdPhiA_computes aE ap aφ).entry
      (fresh_lift2 _ (keeps_lift2 _ (keeps_thetaDOmega _ _ _) (keeps_lit _)) (by keep)) ?_,
    (dEpA_computes aE ap).entry (fresh_lift2 _ (keeps_lift2 _ (keeps_thetaDOmegaUnpol _ _) (keeps_lit _)) (by keep)) ?_⟩ <;>
  simp only [Bool.or_eq_true, aE.isRef, ap.isRef, rφ, IsSeq, List.mem_cons, List.not_mem_nil, or_false, exists_eq_or_imp, exists_eq_left, or_assoc]

/-- An array of two energies, one angle for both, and a list of two azimuthal angles; scattered energies as an array. -/
example (k : PhysConst) (s : KN) :
    EntryByEntry [.array [1, 2], .list [0, 1]] [.ref 0, .num 3, .ref 1] (dOmegaA k s (.ref 0) (.num 3) (.ref 1))
      [s.dOmega k 1 3 0, s.dOmega k 2 3 1] ∧
    EntryByEntry [.array [1, 2], .array [0.5, 0.7]] [.ref 0, .ref 1] (dEpA k s (.ref 0) (.ref 1))
      [s.dEp k 1 0.5, s.dEp k 2 0.7] := by
  constructor
  · exact (C118_angles k s _ [((1 : ℝ), (0 : ℝ)), (2, 1)] (e := (·.1)) (t := fun _ => 3) (f := (·.2)) (E := .ref 0) (θ := .num 3)
      (φ := .ref 1) (by simp [Shows]) (.inl (by simp [Shows])) (.inr ⟨1, rfl, by simp⟩)).2.2.1
  · exact (C118_energies k s _ [((1 : ℝ), (0.5 : ℝ)), (2, 0.7)] (e := (·.1)) (p := (·.2)) (f := fun _ => 0) (E := .ref 0) (Ep := .ref 1)
      (φ := .num 0) (by simp [Shows]) (by simp [Shows]) (.inl (by simp [Shows]))).2.2

/-- C118: arrays whose lengths differ (and none has length 1) are rejected with a `ValueError`, and no existing object changes. -/
theorem C118_lengths (k : PhysConst) (s : KN) (h : Store) {a b : ℕ} {Es ts : List ℝ} (ha : h[a]? = some (.array Es))
    (hb : h[b]? = some (.array ts)) (hne : Es.length ≠ ts.length) (h1 : Es.length ≠ 1) (h2 : ts.length ≠ 1) (φ : AVal)
    {p : M AVal} (hp : p ∈ [epOverEA k (.ref a) (.ref b), dOmegaA k s (.ref a) (.ref b) φ, dOmegaUnpolA k s (.ref a) (.ref b),
      dThetaA k s (.ref a) (.ref b), thetaA k (.ref a) (.ref b), dEpdPhiA k s (.ref a) (.ref b) φ, dEpA k s (.ref a) (.ref b)]) :
    ∃ h', p h = (.error .valueError, h') ∧ h <+: h' := by
  obtain ⟨g1, e1, k1⟩ := epOverEA_mismatch k ha hb hne h1 h2
  have e2 := thetaA_mismatch k ha hb hne h1 h2
  simp only [List.mem_cons, List.not_mem_nil, or_false] at hp
  rcases hp with rfl | rfl | rfl | rfl | rfl | rfl | rfl
  · exact ⟨g1, e1, k1⟩
  · exact ⟨g1, bind_error e1, k1⟩
  · exact ⟨g1, bind_error e1, k1⟩
  · exact ⟨g1, lift2_error_left (bind_error e1), k1⟩
  · exact ⟨h, e2, List.prefix_refl h⟩
  · exact ⟨h, lift2_error_left (lift2_error_left (bind_error e2)), List.prefix_refl h⟩
  · exact ⟨h, lift2_error_left (lift2_error_left (bind_error e2)), List.prefix_refl h⟩

example : ∃ (h : Store) (a b : ℕ) (Es ts : List ℝ), h[a]? = some (.array Es) ∧ h[b]? = some (.array ts) ∧ Es.length ≠ ts.length ∧
    Es.length ≠ 1 ∧ ts.length ≠ 1 := ⟨[.array [1, 2], .array [1, 2, 3]], 0, 1, [1, 2], [1, 2, 3], by simp⟩

/-- C118: energies given as a list are rejected with a `TypeError`, although the documentation calls them array_like. -/
theorem C118_list_of_energies (k : PhysConst) (s : KN) (h : Store) {a : ℕ} {Es : List ℝ} (ha : h[a]? = some (.list Es)) (θ φ : AVal)
    (Ep : ℝ) {p : M AVal} (hp : p ∈ [comptonEdgeA k (.ref a), epOverEA k (.ref a) θ, dOmegaA k s (.ref a) θ φ,
      dOmegaUnpolA k s (.ref a) θ, dThetaA k s (.ref a) θ, thetaA k (.ref a) (.num Ep), thetaA k (.ref a) (.ref a),
      dEpdPhiA k s (.ref a) (.num Ep) φ, dEpA k s (.ref a) (.num Ep)]) :
    p h = (.error .typeError, h) := by
  have e1 : ∀ θ, epOverEA k (.ref a) θ h = (.error .typeError, h) := fun θ => epOverEA_list k ha θ
  have e2 : thetaA k (.ref a) (.num Ep) h = (.error .typeError, h) := thetaA_list k ha Ep
  have e3 : thetaA k (.ref a) (.ref a) h = (.error .typeError, h) := thetaA_list_list k ha
  simp only [List.mem_cons, List.not_mem_nil, or_false] at hp
  rcases hp with rfl | rfl | rfl | rfl | rfl | rfl | rfl | rfl | rfl
  · exact lift2_error_left (e1 _)
  · exact e1 _
  · exact bind_error (e1 _)
  · exact bind_error (e1 _)
  · exact lift2_error_left (bind_error (e1 _))
  · exact e2
  · exact e3
  · exact lift2_error_left (lift2_error_left (bind_error e2))
  · exact lift2_error_left (lift2_error_left (bind_error e2))

/-- The hypotheses are met, by one of the functions. -/
example (k : PhysConst) (s : KN) : ∃ (h : Store) (a : ℕ) (Es : List ℝ), h[a]? = some (.list Es) ∧ Es = [1, 2] ∧
    comptonEdgeA k (.ref a) h = (.error .typeError, h) :=
  ⟨[.list [1, 2]], 0, [1, 2], rfl, rfl, C118_list_of_energies k s _ (a := 0) (Es := [1, 2]) rfl (.num 0) (.num 0) 0 (by simp)⟩

end Ries
