import Verif.Props.SumConv
import Verif.Props.QuadPartition

/-! # Property C185: the partitioned quadrature of a cross section on its own equal-probability grid -/

open MeasureTheory Set

namespace Ries

/-- The integrand is the cross section as a function of the first argument, times a function of the other ones (for example an
angular distribution; the constant 1 if there are no other arguments). -/
def IntegratesReso (r : Reso) (h f : List ℝ → ℝ) : Prop :=
  ∀ E ys, ∃ s, r.call E = .ok (.fin s) ∧ f (E :: ys) = s * h ys

/-- the same for a (sum of) cross section(s) -/
def IntegratesObj (o : Obj) (h f : List ℝ → ℝ) : Prop :=
  ∀ E ys, ∃ s, o.call E = .ok (.num s) ∧ f (E :: ys) = s * h ys

theorem iterIntegral_const_mul (c : ℝ) (h : List ℝ → ℝ) (r : List (ℝ × ℝ)) :
    iterIntegral (fun ys => c * h ys) r = c * iterIntegral h r := by
  induction r generalizing h with
  | nil => rfl
  | cons p r ih =>
    obtain ⟨u, v⟩ := p
    simp only [iterIntegral, intervalIntegral.integral_const_mul]
    exact ih _

theorem iterIntegral_product {σ : ℝ → ℝ} {h f : List ℝ → ℝ} (hf : ∀ E ys, f (E :: ys) = σ E * h ys) (a b : ℝ)
    (r : List (ℝ × ℝ)) : iterIntegral f ((a, b) :: r) = (∫ E in a..b, σ E) * iterIntegral h r := by
  simp only [iterIntegral, hf, intervalIntegral.integral_mul_const]
  exact iterIntegral_const_mul _ h r

theorem contArgs_product {σ : ℝ → ℝ} {h f : List ℝ → ℝ} (hf : ∀ E ys, f (E :: ys) = σ E * h ys) (hσ : Continuous σ) {n : ℕ}
    (hh : ContArgs n h) : ContArgs (n + 1) f := by
  unfold ContArgs at *
  simp only [List.ofFn_succ, hf]
  exact (hσ.comp (continuous_apply 0)).mul (hh.comp (continuous_pi fun i => continuous_apply i.succ))

theorem quad_product {σ : ℝ → ℝ} {h f : List ℝ → ℝ} (hf : ∀ E ys, f (E :: ys) = σ E * h ys) (hσ : Continuous σ)
    {rest : List (ℝ × ℝ)} (hh : ContArgs rest.length h) {g : List ℝ} {a b : ℝ} (ha : g.head? = some a) (hb : g.getLast? = some b)
    {nquad : NQuad} (hacc : PiecesAccurate nquad f g rest) :
    ∃ I D, quadPartition nquad f g (.list rest) = .ok (I, D) ∧
      |I - (∫ E in a..b, σ E) * iterIntegral h rest| ≤ Real.sqrt ((g.length - 1 : ℕ) : ℝ) * D := by
  have hne : g ≠ [] := by rintro rfl; simp at ha
  obtain ⟨I, D, h1, -, h2⟩ := C69_error_bound_partial nquad f g hne rest (contArgs_product hf hσ hh) hacc
  rw [List.head?_eq_some_head hne, Option.some.injEq] at ha
  rw [List.getLast?_eq_some_getLast hne, Option.some.injEq] at hb
  rw [ha, hb, iterIntegral_product hf] at h2
  exact ⟨I, D, h1, h2⟩

/-- the integrals of the pieces of the grid -/
theorem pieces_share {σ : ℝ → ℝ} {v : ℝ} {g : List ℝ} (hg : EqualShares σ g v) : ∀ p ∈ pieces g, ∫ E in p.1..p.2, σ E = v := by
  induction g with
  | nil => simp [pieces]
  | cons x xs ih =>
    cases xs with
    | nil => simp [pieces]
    | cons y ys =>
      intro p hp
      simp only [pieces, List.mem_cons] at hp
      rcases hp with rfl | hp
      · exact hg 0 (by simp)
      · exact ih (fun i hi => hg (i + 1) (by simpa using hi)) p hp

/-- C185: for a Breit-Wigner or Gauss resonance and limits `a < b`, and an integrator whose results for the pieces are accurate
to the errors that it reports: the partitioned quadrature on the grid of the resonance with `n` points gives the integral of the
cross section between the limits, times the integral of the other factor, up to `√(n - 1)` times the returned error; and every
piece has the same integral. -/
theorem C185_limits {r : Reso} (hr : IsBreitWigner r ∨ IsGauss r) {a b : ℝ} (hab : a < b) (n : ℤ) (hn : 2 ≤ n) {h f : List ℝ → ℝ}
    (hf : IntegratesReso r h f) {rest : List (ℝ × ℝ)} (hh : ContArgs rest.length h) :
    ∃ (g : List ℝ) (σ : ℝ → ℝ), r.probGrid (.lims a b) n = .ok (some (g.map .fin)) ∧ r.HasSigma σ ∧
      (∀ p ∈ pieces g, iterIntegral f (p :: rest) = (∫ E in a..b, σ E) / (n - 1) * iterIntegral h rest) ∧
      ∀ nquad : NQuad, PiecesAccurate nquad f g rest → ∃ I D, quadPartition nquad f g (.list rest) = .ok (I, D) ∧
        |I - (∫ E in a..b, σ E) * iterIntegral h rest| ≤ Real.sqrt (n - 1) * D := by
  obtain ⟨g, σ, h1, h2, h3, h4, h5, -, h6⟩ := C11_limits_grid hr hab n hn
  obtain ⟨F, p, Q, hA⟩ := analytic_of hr
  have hσ := sigma_unique h2 hA.sigma
  have hc : Continuous σ := by rw [hσ]; exact continuous_const.mul hA.good.cont
  have hf' : ∀ E ys, f (E :: ys) = σ E * h ys := fun E ys => by
    obtain ⟨s, e1, e2⟩ := hf E ys
    rw [h2 E] at e1
    cases e1
    exact e2
  refine ⟨g, σ, h1, h2, fun q hq => ?_, fun nquad hacc => ?_⟩
  · obtain ⟨u, v⟩ := q
    rw [iterIntegral_product hf', pieces_share h6 _ hq]
  · obtain ⟨I, D, e1, e2⟩ := quad_product hf' hc hh h4 h5 hacc
    refine ⟨I, D, e1, ?_⟩
    have : ((g.length - 1 : ℕ) : ℝ) = n - 1 := by
      rw [Nat.cast_sub (by omega), ← h3]; push_cast; ring
    rwa [this] at e2

/-- C185: the same with a coverage `c` instead of limits: the result is `c` times the energy-integrated cross section, times the
integral of the other factor, up to `√(n - 1)` times the returned error. -/
theorem C185_coverage {r : Reso} (hr : IsBreitWigner r ∨ IsGauss r) {c : ℝ} (h0 : 0 < c) (h1 : c < 1) (n : ℤ) (hn : 2 ≤ n)
    {h f : List ℝ → ℝ} (hf : IntegratesReso r h f) {rest : List (ℝ × ℝ)} (hh : ContArgs rest.length h) :
    ∃ g : List ℝ, r.probGrid (.cov c) n = .ok (some (g.map .fin)) ∧
      (∀ p ∈ pieces g, iterIntegral f (p :: rest) = c / (n - 1) * r.ics * iterIntegral h rest) ∧
      ∀ nquad : NQuad, PiecesAccurate nquad f g rest → ∃ I D, quadPartition nquad f g (.list rest) = .ok (I, D) ∧
        |I - c * r.ics * iterIntegral h rest| ≤ Real.sqrt (n - 1) * D := by
  obtain ⟨g, σ, lo, hi, h1, h2, h3, h4, h5, -, h7, -, -, h6⟩ := C12_coverage_grid hr h0 h1 n hn
  obtain ⟨F, p, Q, hA⟩ := analytic_of hr
  have hσ := sigma_unique h2 hA.sigma
  have hc : Continuous σ := by rw [hσ]; exact continuous_const.mul hA.good.cont
  obtain ⟨τ, hτ, -, hi⟩ := C19_analytic hr
  rw [← sigma_unique h2 hτ] at hi
  rw [hi] at h7 h6
  have hf' : ∀ E ys, f (E :: ys) = σ E * h ys := fun E ys => by
    obtain ⟨s, e1, e2⟩ := hf E ys
    rw [h2 E] at e1
    cases e1
    exact e2
  refine ⟨g, h1, fun q hq => ?_, fun nquad hacc => ?_⟩
  · obtain ⟨u, v⟩ := q
    rw [iterIntegral_product hf', pieces_share h6 _ hq]
  · obtain ⟨I, D, e1, e2⟩ := quad_product hf' hc hh h4 h5 hacc
    refine ⟨I, D, e1, ?_⟩
    have : ((g.length - 1 : ℕ) : ℝ) = n - 1 := by
      rw [Nat.cast_sub (by omega), ← h3]; push_cast; ring
    rwa [this, h7] at e2

/-- C185: with an exact integrator the result is exact. -/
theorem C185_exact {r : Reso} (hr : IsBreitWigner r ∨ IsGauss r) {c : ℝ} (h0 : 0 < c) (h1 : c < 1) (n : ℤ) (hn : 2 ≤ n)
    {h f : List ℝ → ℝ} (hf : IntegratesReso r h f) {rest : List (ℝ × ℝ)} (hh : ContArgs rest.length h) {nquad : NQuad}
    (hex : ∀ ls, nquad f ls = (iterIntegral f ls, 0)) :
    ∃ g : List ℝ, r.probGrid (.cov c) n = .ok (some (g.map .fin)) ∧
      quadPartition nquad f g (.list rest) = .ok (c * r.ics * iterIntegral h rest, 0) := by
  obtain ⟨g, h2, -, h3⟩ := C185_coverage hr h0 h1 n hn hf hh
  obtain ⟨I, D, e1, e2⟩ := h3 nquad fun p _ => by simp [hex]
  have hD : D = 0 := by
    simp only [quadPartition, LimArg.orEmpty, Bind.bind, Except.bind, quadLoop_eq, hex] at e1
    cases e1
    simp
  subst hD
  rw [mul_zero] at e2
  have := abs_nonpos_iff.1 e2
  exact ⟨g, h2, by rw [e1, show I = c * r.ics * iterIntegral h rest by linarith]⟩

/-- C185: for sums of cross sections (and constants and nonresonant processes) with limits, the result is the integral of the sum
between the limits, up to the square root of the number of pieces times the returned error, whatever the number `n ≥ 2`. -/
theorem C185_sum {a b C : ℝ} (hab : a < b) {o : Obj} (ho : Refines a b C o) (n : ℤ) (hn : 2 ≤ n) {h f : List ℝ → ℝ}
    (hf : IntegratesObj o h f) {σ : ℝ → ℝ} (hσ : ∀ E, o.call E = .ok (.num (σ E))) (hc : Continuous σ) {rest : List (ℝ × ℝ)}
    (hh : ContArgs rest.length h) :
    ∃ g : List ℝ, o.probGrid (.lims a b) n = .ok (g.map .fin) ∧
      ∀ nquad : NQuad, PiecesAccurate nquad f g rest → ∃ I D, quadPartition nquad f g (.list rest) = .ok (I, D) ∧
        |I - (∫ E in a..b, σ E) * iterIntegral h rest| ≤ Real.sqrt ((g.length - 1 : ℕ) : ℝ) * D := by
  obtain ⟨g, hg, hs, hD⟩ := ho.dense hab n hn
  obtain ⟨e1, e2, -⟩ := chain_of_denseIn hs hD
  refine ⟨g, hg, fun nquad hacc => quad_product (fun E ys => ?_) hc hh e1 e2 hacc⟩
  obtain ⟨s, h1, h2⟩ := hf E ys
  rw [hσ E] at h1
  cases h1
  exact h2

/-- The hypotheses are met: a resonance with an angular distribution as the second coordinate, and an exact integrator. -/
example : ∃ (r : Reso) (f : List ℝ → ℝ) (nquad : NQuad), (IsBreitWigner r ∨ IsGauss r) ∧
    IntegratesReso r (fun ys => 1 + Real.cos (ys.headD 0) ^ 2) f ∧
    ContArgs [((0 : ℝ), Real.pi)].length (fun ys => 1 + Real.cos (ys.headD 0) ^ 2) ∧
    ∀ ls, nquad f ls = (iterIntegral f ls, 0) := by
  obtain ⟨r, hr⟩ := exIsBreitWigner
  obtain ⟨F, p, Q, hA⟩ := analytic_of (Or.inl hr)
  refine ⟨r, fun xs => r.ics * p (xs.headD 0) * (1 + Real.cos (xs.tail.headD 0) ^ 2), fun f ls => (iterIntegral f ls, 0),
    Or.inl hr, fun E ys => ⟨_, hA.sigma E, by simp⟩, ?_, fun _ => rfl⟩
  unfold ContArgs
  simp only [List.length_cons, List.length_nil, List.ofFn_succ, List.headD_cons]
  fun_prop

/-- The hypotheses are met by a sum of a resonance and a constant, with limits. -/
example : ∃ (r : Reso) (C : ℝ) (σ : ℝ → ℝ) (f : List ℝ → ℝ), (IsBreitWigner r ∨ IsGauss r) ∧
    Refines 1 3 C (.wsum [.leaf r.toLeaf, .const 1] [.num 2, .num 3]) ∧ Continuous σ ∧
    (∀ E, Obj.call (.wsum [.leaf r.toLeaf, .const 1] [.num 2, .num 3]) E = .ok (.num (σ E))) ∧
    IntegratesObj (.wsum [.leaf r.toLeaf, .const 1] [.num 2, .num 3]) (fun _ => 1) f := by
  obtain ⟨r, h, -, hI⟩ := exMid_resonance
  have hB : IsBreitWigner { r with dist := cauchyDist, params := [r.er, 0.5 * 1e-5] } :=
    ⟨exConst, exGround, exMid, none, 1e-5, by simp [mkBreitWigner, h, exMid_width, Bind.bind, Except.bind], exMid_width, by norm_num⟩
  generalize hR : ({ r with dist := cauchyDist, params := [r.er, 0.5 * 1e-5] } : Reso) = R at hB
  have hI' : 0 < R.ics := by rw [← hR]; exact hI
  obtain ⟨F, p, Q, hA⟩ := analytic_of (Or.inl hB)
  have h1 := Refines.resonance (a := 1) (b := 3) _ (Or.inl hB) hI' _ hA.sigma
  have h3 : Refines 1 3 (3 - 1) (.const 1) := .const 1
  have hcall : ∀ E, Obj.call (.wsum [.leaf R.toLeaf, .const 1] [.num 2, .num 3]) E =
      .ok (.num (2 * (R.ics * p E) + 3 * 1)) := by
    intro E
    have := hA.sigma E
    simp only [Obj.call, Obj.callLoop, Reso.toLeaf, this, Bind.bind, Except.bind, Except.map, Obj.mul, Obj.add]
    norm_num
  refine ⟨R, _, _, fun xs => 2 * (R.ics * p (xs.headD 0)) + 3 * 1, Or.inl hB, .sum _ _ _ _ (by simp) h3 (by
      intro o ho
      simp only [List.mem_cons, List.not_mem_nil, or_false] at ho
      rcases ho with rfl | rfl
      · exact C143_inside (by norm_num) h1
      · exact C143_inside (by norm_num) h3), ?_, hcall, fun E ys => ⟨_, hcall E, by simp⟩⟩
  have := hA.good.cont
  fun_prop

end Ries
