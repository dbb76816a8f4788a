import Verif.Lemmas.ArrayClasses
import Verif.Props.Shapes
import Verif.Props.Resonance
import Verif.Spec.Examples
import Verif.Props.Coverage

/-! # C110–C112: evaluation on arrays and lists, relative energies -/

namespace Ries

open Arr

/-! ## C110 -/

/-- C110: calling a cross section (sums nested in any way) changes no array or list that existed before the call, whatever the
argument is and whether or not the call raises; the constituents may be any code that itself changes nothing. -/
theorem C110_arguments_kept {o : AObj} (ho : Gentle o) (E : AVal) (h : Store) : h <+: (o.call E h).2 :=
  keeps_call ho E h

/-- C110: all classes of the project satisfy the hypothesis, in absolute and in relative mode and for every argument. -/
theorem C110_classes_keep (ics er : ℝ) (b : Bool) (f : ℝ → ℝ) (d : PV) (k : PhysConst) (s : KN) (v : AVal) :
    Gentle (.leaf (resonanceCall ics er (scipyPdf f) b)) ∧ Gentle (.leaf (resonanceCall ics er (pvPdf d) b)) ∧
    Gentle (.leaf (resonanceCall ics er (voigtPdf er f) b)) ∧ Gentle (.leaf (knCall k s)) ∧ Gentle (.leaf (xrmacCallA f)) ∧
    Gentle (.const v) :=
  ⟨.leaf (keeps_resonance ics er (keeps_op1 f) b), .leaf (keeps_resonance ics er (keeps_pvPdf d) b),
    .leaf (keeps_resonance ics er (keeps_voigtPdf er f) b), .leaf (keeps_kn k s), .leaf (keeps_xrmac f), .const v⟩

/-- C110: an array returned by a weighted sum is a new one, also if a constituent returns its argument or a stored array; so
overwriting the result changes nothing that existed before, and two calls do not return the same array. -/
theorem C110_result_new {rs : List AObj} {ss : List ℝ} (ho : Gentle (.wsum rs ss)) (E : AVal) (h : Store) {a : ℕ}
    (hr : ((AObj.wsum rs ss).call E h).1 = .ok (.ref a)) :
    h.length ≤ a ∧ (∀ c, h <+: ((AObj.wsum rs ss).call E h).2.set a c) ∧
    ∀ E' b, ((AObj.wsum rs ss).call E' ((AObj.wsum rs ss).call E h).2).1 = .ok (.ref b) → b ≠ a := by
  have hg : ∀ r ∈ rs, ∀ E, Keeps (r.call E) := by
    cases ho with
    | wsum h => exact fun r hr => keeps_call (h r hr)
  have key : ∀ E h a, ((AObj.wsum rs ss).call E h).1 = .ok (.ref a) → h.length ≤ a := by
    intro E h a hr
    rw [AObj.call] at hr
    exact (stays_callLoop rs hg E ss (.num 0) trivial h (List.prefix_refl h)).2 _ hr
  refine ⟨key E h a hr, fun c => prefix_set (keeps_call ho E h) (key E h a hr) c, fun E' b hb => ?_⟩
  have h1 := key E' _ b hb
  have h2 : a < ((AObj.wsum rs ss).call E h).2.length := by
    rw [AObj.call] at hr ⊢
    exact (exists_callLoop rs hg E ss (.num 0) h trivial).2 _ hr
  omega

/-- A sum of a cross section that returns its argument, of a constant stored as an array, and of a resonance, on an array. -/
example : Gentle (.wsum [.leaf pure, .const (.ref 0), .leaf (resonanceCall 1 2 (scipyPdf fun x => x) false)] [1, 2, 3]) ∧
    ∃ a, ((AObj.wsum [.leaf pure, .const (.ref 0)] [1, 2]).call (.ref 1) [.array [5, 7], .array [1, 3]]).1 = .ok (.ref a) := by
  refine ⟨.wsum fun r hr => ?_, 3, ?_⟩
  · simp only [List.mem_cons, List.not_mem_nil, or_false] at hr
    rcases hr with rfl | rfl | rfl
    · exact .leaf fun v => keeps_pure v
    · exact .const _
    · exact .leaf (keeps_resonance 1 2 (keeps_op1 _) false)
  · rfl

/-- C110: if every constituent computes its function entry by entry, so does the sum; on a number it returns the number. -/
theorem C110_pointwise {S : Set ℝ} {o : AObj} {f : ℝ → ℝ} (ho : Evaluates .array S o f) : Vectorised .array S o.call f :=
  evaluates_call ho

/-- C110: the classes compute entry by entry the functions they compute for numbers. -/
theorem C110_classes {r : Reso} {p : ℝ → ℝ} (hp : ∀ E, r.dist.pdf r.params E = .ok (.fin (p E))) (d : PV) (ics er : ℝ)
    (profile interp : ℝ → ℝ) (k : PhysConst) (s : KN) :
    (∀ b, ∃ σ, (∀ E, r.call E b = .ok (.fin (σ E))) ∧ Vectorised .array Set.univ (resonanceCall r.ics r.er (scipyPdf p) b) σ) ∧
    Vectorised .array Set.univ (resonanceCall ics er (pvPdf d) true) (fun E => ics * d.pdfR E) ∧
    Vectorised .array Set.univ (resonanceCall ics er (pvPdf d) false) (fun E => ics * d.pdfR (E + er)) ∧
    Vectorised .array Set.univ (resonanceCall ics er (voigtPdf er profile) true) (fun E => ics * profile (E - er)) ∧
    Vectorised .array Set.univ (resonanceCall ics er (voigtPdf er profile) false) (fun E => ics * profile E) ∧
    Vectorised .array {E | 0 < E} (knCall k s) (s.total k) ∧
    Vectorised .array {E | 0 < E} (xrmacCallA interp) (fun E => (10 : ℝ) ^ interp (Real.logb 10 E)) := by
  refine ⟨fun b => ?_, vec_resonance_abs ics er (vec_pvPdf (.inl rfl) d), ?_, vec_resonance_abs ics er (vec_voigtPdf er profile), ?_,
    vec_kn k s, vec_xrmac (.inl rfl) interp⟩
  · cases b
    · refine ⟨fun E => r.ics * p (E + r.er), fun E => ?_, ?_⟩
      · simp [Reso.call, hp, bind, Except.bind, Fl.smul]
      · simpa using vec_resonance_rel r.ics r.er (pdf := scipyPdf p) (vec_op1 (.inl rfl) Set.univ p)
    · refine ⟨fun E => r.ics * p E, fun E => ?_, vec_resonance_abs r.ics r.er (vec_op1 (.inl rfl) Set.univ p)⟩
      simp [Reso.call, hp, bind, Except.bind, Fl.smul]
  · simpa using vec_resonance_rel ics er (vec_pvPdf (.inl rfl) d)
  · simpa using vec_resonance_rel ics er (vec_voigtPdf er profile)

/-- Breit-Wigner satisfies the hypothesis; a sum of 2 times it and a constant is evaluated entry by entry. -/
example : ∃ r p, mkBreitWigner exConst exGround exExcited none = .ok r ∧ (∀ E, r.dist.pdf r.params E = .ok (.fin (p E))) ∧
    ∃ f, Evaluates .array Set.univ (.wsum [.leaf (resonanceCall r.ics r.er (scipyPdf p) true), .const (.num 3)] [2, 1]) f := by
  obtain ⟨r, hr, he, hpar⟩ := exBreitWigner
  obtain ⟨r0, w, h0, hw, rfl⟩ := mkBreitWigner_inv hr
  have hp : ∀ E, Dist.pdf cauchyDist [r0.er, 0.5 * w] E = .ok (.fin (cauchyPdf r0.er (0.5 * w) E)) := by
    intro E
    have : (0.5 : ℝ) * w = 2 := by
      simp only [List.cons.injEq] at hpar
      exact hpar.2.1
    simp [cauchyDist, scipyDist, locScale, this, bind, Except.bind]
  exact ⟨_, _, hr, hp, _, .cons 2 (.leaf (vec_resonance_abs _ _ (vec_op1 (.inl rfl) _ _))) (.cons 1 (.const 3) (.empty []))⟩

/-- C110: the equal-probability grid between limits given as an array or list is a new array; neither the limits nor any other object
are changed by the assignments to its ends. -/
theorem C110_grid_keeps {cdf ppf : AVal → M AVal} (hc : ∀ v, Keeps (cdf v))
    (hp : ∀ h0 q, Fresh h0 q → Stays h0 (ppf q) (Fresh h0)) (ls : ℝ → ℝ → List ℝ) (lim : ℕ) (h : Store) :
    h <+: (probGridA cdf ppf ls lim h).2 ∧ ∀ v, (probGridA cdf ppf ls lim h).1 = .ok v → Fresh h v :=
  stays_probGrid hc (hp h) ls lim h (List.prefix_refl h)

/-- scipy's methods, which return new arrays, and a method that returns its argument satisfy the hypotheses. -/
example (F G : ℝ → ℝ) : (∀ v, Keeps (op1 F v)) ∧ (∀ h0 q, Fresh h0 q → Stays h0 (pure q : M AVal) (Fresh h0)) ∧
    ∀ h0 q, Fresh h0 q → Stays h0 (op1 G q) (Fresh h0) := by
  refine ⟨keeps_op1 F, fun h0 q hq => stays_pure hq, fun h0 q hq => ?_⟩
  cases q with
  | num x => exact stays_pure trivial
  | ref a =>
    refine stays_bind (stays_getCell _) fun c _ => ?_
    cases c <;> exact stays_alloc _

/-- C110: the Darboux sums change no existing object (neither the partition nor arrays the function has stored), and on an array or a
list of grid points they are those of the function values. -/
theorem C110_darboux {K : List ℝ → Cell} (hK : K = .array ∨ K = .list) {f : AVal → M AVal} {g : ℝ → ℝ} (hk : ∀ v, Keeps (f v))
    (hf : ∀ h a Es, h[a]? = some (K Es) → ∃ i h', f (.ref a) h = (.ok (.ref i), h') ∧ h <+: h' ∧ h'[i]? = some (.array (Es.map g)))
    (h : Store) (a : ℕ) (xs : List ℝ) (ha : h[a]? = some (K xs)) :
    h <+: (darbouxA f (.ref a) h).2 ∧ (darbouxA f (.ref a) h).1 = darboux (vectorised g) xs :=
  ⟨keeps_darboux hk _ h, darbouxA_value hK hf h a xs ha⟩

example (g : ℝ → ℝ) : (∀ v, Keeps (op1 g v)) ∧ ∀ h a Es, h[a]? = some (Cell.list Es) →
    ∃ i h', op1 g (.ref a) h = (.ok (.ref i), h') ∧ h <+: h' ∧ h'[i]? = some (.array (Es.map g)) := by
  refine ⟨keeps_op1 g, fun h a Es ha => ⟨h.length, h ++ [.array (Es.map g)], ?_, List.prefix_append _ _, by simp⟩⟩
  rw [op1, bind_ok (getCell_ok ha)]
  rfl

/-! ## C111 -/

/-- C111 is false: in relative-energy mode every resonance, and in both modes the Voigt resonance and the Compton cross section, raise
`TypeError` on a list of energies. -/
theorem C111_refuted (ics er : ℝ) (pdf : AVal → M AVal) (profile : ℝ → ℝ) (b : Bool) (k : PhysConst) (s : KN) (h : Store) (a : ℕ)
    (Es : List ℝ) (ha : h[a]? = some (.list Es)) :
    resonanceCall ics er pdf false (.ref a) h = (.error .typeError, h) ∧
    resonanceCall ics er (voigtPdf er profile) b (.ref a) h = (.error .typeError, h) ∧
    knCall k s (.ref a) h = (.error .typeError, h) := by
  have h2 : ∀ (F : ℝ → ℝ → ℝ) (y : ℝ), op2 F (.ref a) (.num y) h = (.error .typeError, h) := by
    intro F y
    rw [op2, bind_ok (getCell_ok ha)]
    rfl
  have hv : voigtPdf er profile (.ref a) h = (.error .typeError, h) := by
    unfold voigtPdf
    rw [bind_error (h2 _ _)]
  refine ⟨?_, ?_, ?_⟩
  · show (op2 (· + ·) (.ref a) (.num er) >>= _) h = _
    rw [bind_error (h2 _ _)]
  · cases b
    · show (op2 (· + ·) (.ref a) (.num er) >>= _) h = _
      rw [bind_error (h2 _ _)]
    · show (voigtPdf er profile (.ref a) >>= _) h = _
      rw [bind_error hv]
  · unfold knCall
    rw [bind_error (h2 _ _)]

/-- C111, the part that holds: with absolute energies the default resonance, Breit-Wigner, Gauss and pseudo-Voigt, and the tabulated
cross sections accept a list and return the array of the values; so does every sum of them and constants. -/
theorem C111_partial (ics er : ℝ) (p interp : ℝ → ℝ) (d : PV) :
    Vectorised .list Set.univ (resonanceCall ics er (scipyPdf p) true) (fun E => ics * p E) ∧
    Vectorised .list Set.univ (resonanceCall ics er (pvPdf d) true) (fun E => ics * d.pdfR E) ∧
    Vectorised .list {E | 0 < E} (xrmacCallA interp) (fun E => (10 : ℝ) ^ interp (Real.logb 10 E)) ∧
    ∀ S o f, Evaluates .list S o f → Vectorised .list S o.call f :=
  ⟨vec_resonance_abs ics er (vec_op1 (.inr rfl) _ p), vec_resonance_abs ics er (vec_pvPdf (.inr rfl) d), vec_xrmac (.inr rfl) interp,
    fun _ _ _ h => evaluates_call h⟩

/-- Twice a Gauss-like resonance plus a constant, on a list. -/
example (p : ℝ → ℝ) : ∃ f, Evaluates .list Set.univ (.wsum [.leaf (resonanceCall 1 2 (scipyPdf p) true), .const (.num 3)] [2, 1]) f :=
  ⟨_, .cons 2 (.leaf (C111_partial 1 2 p p ⟨0, 0, 0, 0, 0, 0, 0⟩).1) (.cons 1 (.const 3) (.empty []))⟩

/-! ## C112 -/

/-- C112 is false: for every Breit-Wigner, Gauss or pseudo-Voigt resonance with positive strength at a positive energy, the value
returned for `E = 0` in relative mode is not the cross section at `E - E_r`. -/
theorem C112_refuted {r : Reso} (h : IsBreitWigner r ∨ IsGauss r ∨ IsPseudoVoigt r) (hI : 0 < r.ics) (hE : 0 < r.er) :
    ¬ ∀ E, r.call E false = r.call (E - r.er) true := by
  intro hall
  obtain ⟨σ, hσ, hs, hm, -⟩ := C26_symmetric_peak h hI
  have h0 := hall 0
  rw [show r.call 0 false = r.call (0 + r.er) true from rfl, hσ, hσ] at h0
  simp only [Except.ok.injEq, Fl.fin.injEq] at h0
  have := hm 0 (-(2 * r.er)) (by rw [abs_zero, abs_neg, abs_of_pos] <;> linarith)
  rw [show r.er + -(2 * r.er) = 0 - r.er by ring, ← h0] at this
  simp at this

/-- The hypotheses are met; both cross sections have values at every energy. -/
example : ∃ (r : Reso) (σ : ℝ → ℝ), IsBreitWigner r ∧ 0 < r.ics ∧ 0 < r.er ∧ r.HasSigma σ := by
  obtain ⟨r, h, he, hI⟩ := exMid_resonance
  have hB : IsBreitWigner { r with dist := cauchyDist, params := [r.er, 0.5 * 1e-5] } :=
    ⟨exConst, exGround, exMid, none, 1e-5, by simp [mkBreitWigner, h, exMid_width, bind, Except.bind], exMid_width, by norm_num⟩
  obtain ⟨F, p, Q, hA⟩ := analytic_of (Or.inl hB)
  exact ⟨_, _, hB, hI, by rw [he]; norm_num, hA.sigma⟩

/-- C112, the part that holds: relative mode is centred at zero, i.e. its value at `E - E_r` is the cross section at `E`. -/
theorem C112_partial {r : Reso} {σ : ℝ → ℝ} (h : r.HasSigma σ) (E : ℝ) : r.call (E - r.er) false = .ok (.fin (σ E)) := by
  rw [show r.call (E - r.er) false = r.call (E - r.er + r.er) true from rfl, sub_add_cancel, h]

/-- The hypothesis is met. -/
example : ∃ (r : Reso) (σ : ℝ → ℝ), IsBreitWigner r ∧ r.HasSigma σ := by
  obtain ⟨r, h, -⟩ := exBreitWigner
  have hB : IsBreitWigner r := ⟨_, _, _, _, 4, h, exExcited_width, by norm_num⟩
  obtain ⟨F, p, Q, hA⟩ := hB.analytic
  exact ⟨r, _, hB, hA.sigma⟩

end Ries
