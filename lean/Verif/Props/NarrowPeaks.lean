import Verif.Lemmas.NarrowPeaks
import Verif.Lemmas.VoigtCdf
import Verif.Props.Darboux
import Verif.Spec.Examples

/-! # C201: narrow resonances need the grid of equal probability -/

open MeasureTheory

namespace Ries

theorem Analytic.cov_grid {r : Reso} {F p Q : ℝ → ℝ} (hA : Analytic r F p Q) {c : ℝ} (h0 : 0 < c) (h1 : c < 1) (m : ℕ) :
    r.probGrid (.cov c) ((m : ℤ) + 2) = .ok (some ((qgrid Q (0.5 * (1 - c)) (0.5 * (1 + c)) m).map .fin)) := by
  have ha : 0 < 0.5 * (1 - c) := by linarith
  have hb : 0.5 * (1 + c) < 1 := by linarith
  have hab : 0.5 * (1 - c) < 0.5 * (1 + c) := by linarith
  simp only [Reso.probGrid, bind, Except.bind, linspace_nat, hA.ppf_linspace ha hb hab.le]

theorem qgrid_affine {Q Q' : ℝ → ℝ} {l s : ℝ} (h : ∀ q, 0 < q → q < 1 → Q' q = l + s * Q q) {a b : ℝ} (ha : 0 < a) (hb : b < 1)
    (hab : a < b) (m : ℕ) : qgrid Q' a b m = (qgrid Q a b m).map fun y => l + s * y := by
  simp only [qgrid, List.map_map, Function.comp_def]
  refine List.map_congr_left fun i hi => ?_
  have him : (i : ℝ) ≤ m + 1 := by
    have : i < m + 2 := List.mem_range.1 hi
    exact_mod_cast (by omega : i ≤ m + 1)
  have hm : (0 : ℝ) < m + 1 := by positivity
  have hd : 0 ≤ (b - a) / (m + 1) := by apply div_nonneg <;> linarith
  refine h _ ?_ ?_
  · have : 0 ≤ (i : ℝ) * ((b - a) / (m + 1)) := by positivity
    linarith
  · have h1 : (i : ℝ) * ((b - a) / (m + 1)) ≤ (m + 1) * ((b - a) / (m + 1)) := by gcongr
    rw [mul_div_cancel₀ _ hm.ne'] at h1
    linarith

/-- What two members of a family of distributions that differ in location and scale have in common. -/
theorem same_quadrature {P Q0 : ℝ → ℝ} {c : ℝ} (h0 : 0 < c) (h1 : c < 1) (m : ℕ) {nquad : NQuad} (hc : Covariant nquad) :
    ∃ V W L D : ℝ, ∀ (r : Reso) (F p Q : ℝ → ℝ) (l s : ℝ), 0 < s → Analytic r F p Q → (∀ x, p (l + s * x) = P x / s) →
      (∀ q, 0 < q → q < 1 → Q q = l + s * Q0 q) →
      ∃ g : List ℝ, r.probGrid (.cov c) ((m : ℤ) + 2) = .ok (some (g.map .fin)) ∧
        (∀ f : List ℝ → ℝ, (∀ E, r.call E = .ok (.fin (f [E]))) → quadPartition nquad f g .none = .ok (r.ics * V, |r.ics| * W)) ∧
        ∀ σ : ℝ → ℝ, r.HasSigma σ → 0 ≤ r.ics → darboux (vectorised σ) g = .ok (r.ics * L, r.ics * D) := by
  let z := qgrid Q0 (0.5 * (1 - c)) (0.5 * (1 + c)) m
  let f0 : List ℝ → ℝ := fun xs => P (xs.headD 0)
  have hz : z ≠ [] := by
    intro h
    have := qgrid_length Q0 (0.5 * (1 - c)) (0.5 * (1 + c)) m
    simp only [z] at h
    rw [h] at this
    simp at this
  obtain ⟨V, W, hVW⟩ : ∃ V W, quadPartition nquad f0 z .none = .ok (V, W) := ⟨_, _, rfl⟩
  obtain ⟨-, L, D, hLD, -, -, -, -, -, -⟩ := C64_function_vs_values z (z.map P) P hz (by simp)
  refine ⟨V, W, L, D, fun r F p Q l s hs hA hp hQ => ?_⟩
  have hs' := hs.ne'
  have hg := hA.cov_grid h0 h1 m
  rw [qgrid_affine hQ (by linarith) (by linarith) (by linarith) m] at hg
  refine ⟨_, hg, fun f hf => ?_, fun σ hσ hi => ?_⟩
  · have e : ∀ x, f [l + s * x] = r.ics / s * f0 [x] := by
      intro x
      have h2 := hf (l + s * x)
      rw [hA.sigma, Except.ok.injEq, Fl.fin.injEq] at h2
      rw [← h2]
      simp only [f0, List.headD_cons, hp]
      ring
    have := quadPartition_affine hc hs e z hVW
    rw [abs_div, abs_of_pos hs, div_mul_cancel₀ _ hs', div_mul_cancel₀ _ hs'] at this
    exact this
  · have hσ' : σ = fun E => r.ics * p E := by
      funext E
      have h2 := hσ E
      rw [hA.sigma, Except.ok.injEq, Fl.fin.injEq] at h2
      exact h2.symm
    have h3 := fun x y hne hl => (C64_function_vs_values x y σ hne hl).1
    have hne : (z.map fun y => l + s * y) ≠ [] := by simpa using hz
    rw [show (qgrid Q0 (0.5 * (1 - c)) (0.5 * (1 + c)) m).map (fun y => l + s * y) = z.map fun y => l + s * y from rfl]
    rw [h3 _ ((z.map fun y => l + s * y).map σ) hne (by simp)]
    have hv : (z.map fun y => l + s * y).map σ = (z.map P).map ((r.ics / s) * ·) := by
      simp only [List.map_map, Function.comp_def, hσ']
      exact List.map_congr_left fun x _ => by rw [hp]; ring
    have hx : (z.map fun y => l + s * y) = (z.map (s * ·)).map (· + l) := by
      simp only [List.map_map, Function.comp_def]
      exact List.map_congr_left fun x _ => by ring
    rw [hv, hx]
    -- stretch, shift, then the factor of the values
    obtain ⟨-, L1, D1, e1, -, -, e2, -, -, -⟩ := C64_function_vs_values z (z.map P) P hz (by simp)
    rw [hLD] at e1
    cases e1
    obtain ⟨-, L2, D2, e3, -, -, -, e4, -, -⟩ := C64_function_vs_values (z.map (s * ·)) (z.map P) P (by simpa using hz) (by simp)
    rw [e2 s] at e3
    cases e3
    obtain ⟨-, L3, D3, e5, -, e6, -, -, -, -⟩ :=
      C64_function_vs_values (z.map (s * ·)) ((z.map P).map ((r.ics / s) * ·)) P (by simpa using hz) (by simp)
    rw [e4 _ (by positivity)] at e5
    cases e5
    rw [e6 l, abs_of_pos hs]
    congr 2 <;> field_simp

/-- C201: integrating a Breit-Wigner resonance over its own grid of `n` points of equal probability works for narrow ones as well as for broad
ones. For every integrator without a scale of its own, the quadrature over the grid is the same multiple `V` of the energy-integrated cross
section for all Breit-Wigner resonances, whatever their energy and width, and reports the same relative error; the same holds for the Darboux
sums. -/
theorem C201_breitWigner {c : ℝ} (h0 : 0 < c) (h1 : c < 1) (n : ℤ) (hn : 2 ≤ n) {nquad : NQuad} (hc : Covariant nquad) :
    ∃ V W L D : ℝ, ∀ r : Reso, IsBreitWigner r →
      ∃ g : List ℝ, r.probGrid (.cov c) n = .ok (some (g.map .fin)) ∧
        (∀ f : List ℝ → ℝ, (∀ E, r.call E = .ok (.fin (f [E]))) → quadPartition nquad f g .none = .ok (r.ics * V, |r.ics| * W)) ∧
        ∀ σ : ℝ → ℝ, r.HasSigma σ → 0 ≤ r.ics → darboux (vectorised σ) g = .ok (r.ics * L, r.ics * D) := by
  obtain ⟨m, rfl⟩ : ∃ m : ℕ, n = (m : ℤ) + 2 := ⟨(n - 2).toNat, by omega⟩
  obtain ⟨V, W, L, D, h⟩ := same_quadrature (P := cauchyPdf 0 1) (Q0 := cauchyPpf 0 1) h0 h1 m hc
  refine ⟨V, W, L, D, fun r hr => ?_⟩
  obtain ⟨s, hs, hp, hd⟩ := hr.shape
  refine h r _ _ _ r.er s hs (analytic_cauchy hd hp hs) (fun x => ?_) fun q _ _ => ?_
  · simp only [cauchyPdf, add_sub_cancel_left, sub_zero, div_one, mul_one]
    rw [mul_div_cancel_left₀ _ hs.ne', div_div]
    congr 1
    ring
  · simp only [cauchyPpf]; ring

/-- C201: the same for all Gauss resonances, whatever their energy, the mass of the atom and the temperature. -/
theorem C201_gauss {c : ℝ} (h0 : 0 < c) (h1 : c < 1) (n : ℤ) (hn : 2 ≤ n) {nquad : NQuad} (hc : Covariant nquad) :
    ∃ V W L D : ℝ, ∀ r : Reso, IsGauss r →
      ∃ g : List ℝ, r.probGrid (.cov c) n = .ok (some (g.map .fin)) ∧
        (∀ f : List ℝ → ℝ, (∀ E, r.call E = .ok (.fin (f [E]))) → quadPartition nquad f g .none = .ok (r.ics * V, |r.ics| * W)) ∧
        ∀ σ : ℝ → ℝ, r.HasSigma σ → 0 ≤ r.ics → darboux (vectorised σ) g = .ok (r.ics * L, r.ics * D) := by
  obtain ⟨m, rfl⟩ : ∃ m : ℕ, n = (m : ℤ) + 2 := ⟨(n - 2).toNat, by omega⟩
  obtain ⟨V, W, L, D, h⟩ := same_quadrature (P := normPdf 0 1) (Q0 := invOf (normCdf 0 1)) h0 h1 m hc
  refine ⟨V, W, L, D, fun r hr => ?_⟩
  obtain ⟨s, hs, hp, hd⟩ := hr.shape
  refine h r _ _ _ r.er s hs (analytic_norm hd hp hs) (fun x => ?_) fun q q0 q1 => ?_
  · simp only [normPdf, add_sub_cancel_left, sub_zero, div_one, one_mul]
    rw [mul_div_cancel_left₀ _ hs.ne', div_div, mul_comm s]
  · refine (norm_good r.er hs).strictMono.injective ?_
    rw [(norm_good r.er hs).invOf_spec q0 q1, normCdf_std_eq r.er hs, add_sub_cancel_left, mul_div_cancel_left₀ _ hs.ne',
      (norm_good 0 one_pos).invOf_spec q0 q1]

/-- the midpoint rule that compares with the trapezoidal rule -/
noncomputable def exMidpoint : FirstRule := ⟨[(0, 0), (1 / 2, 1), (1, 0)], fun vs => |vs.getD 1 0 - (vs.getD 0 0 + vs.getD 2 0) / 2|⟩

theorem exMidpoint_homogeneous : exMidpoint.Homogeneous := by
  intro vs m
  have h : ∀ i, (vs.map (m * ·)).getD i 0 = m * vs.getD i 0 := by
    intro i
    rw [List.getD_eq_getElem?_getD, List.getD_eq_getElem?_getD, List.getElem?_map]
    cases vs[i]? <;> simp
  simp only [exMidpoint, h, ← abs_mul]
  congr 1
  ring

theorem exMidpoint_bounded : exMidpoint.Bounded 2 := by
  intro vs η hη h
  have hi : ∀ i, |vs.getD i 0| ≤ η := by
    intro i
    rw [List.getD_eq_getElem?_getD]
    cases hi : vs[i]? with
    | none => simpa using hη
    | some v => exact h v (List.mem_of_getElem? hi)
  have a := abs_le.1 (hi 0)
  have b := abs_le.1 (hi 1)
  have c := abs_le.1 (hi 2)
  simp only [exMidpoint, abs_abs, abs_le]
  constructor <;> linarith

example : Covariant exMidpoint.nquad ∧ (∃ r, IsBreitWigner r) ∧ ∃ r, IsGauss r :=
  ⟨FirstRule.covariant exMidpoint_homogeneous, exIsBreitWigner, exIsGauss⟩

theorem missed_of {r : Reso} {p : ℝ → ℝ} {s : ℝ} (hN : NarrowAt p r.er s) (hs : 0 ≤ s) (hσ : r.HasSigma fun E => r.ics * p E) {a b d : ℝ}
    (hd : 0 < d) (ha : a ≤ r.er - d) (hb : r.er + d ≤ b) {ρ : FirstRule} {K : ℝ} (hK : ρ.Bounded K)
    (hfar : ∀ n ∈ ρ.nodes, d ≤ |a + (b - a) * n.1 - r.er|) {f : List ℝ → ℝ} (hf : ∀ E, r.call E = .ok (.fin (f [E]))) :
    |(∫ E in a..b, f [E]) - r.ics| ≤ |r.ics| * (s / d) ∧
    |(ρ.nquad f [(a, b)]).1| ≤ (b - a) * ρ.weight * (|r.ics| * (s / d ^ 2)) ∧
    |(ρ.nquad f [(a, b)]).2| ≤ (b - a) * K * (|r.ics| * (s / d ^ 2)) ∧
    ∀ (epsabs epsrel : ℝ) (next : NQuad), (b - a) * K * (|r.ics| * (s / d ^ 2)) ≤ epsabs →
      ρ.adaptive epsabs epsrel next f [(a, b)] = ρ.nquad f [(a, b)] := by
  have hf' : ∀ E, f [E] = r.ics * p E := by
    intro E
    have h := hf E
    rw [hσ, Except.ok.injEq, Fl.fin.injEq] at h
    exact h.symm
  have hsm := FirstRule.small hK (f := f) (a := a) (b := b) (η := |r.ics| * (s / d ^ 2)) (by positivity) fun n hn => by
    rw [hf', abs_mul, abs_of_nonneg (hN.nonneg _)]
    gcongr
    exact hN.far _ _ hd (hfar n hn)
  rw [abs_of_pos (show 0 < b - a by linarith)] at hsm
  refine ⟨?_, hsm.1, hsm.2, fun ea er next he => ?_⟩
  · simp only [hf']
    rw [intervalIntegral.integral_const_mul, show r.ics * (∫ E in a..b, p E) - r.ics = r.ics * ((∫ E in a..b, p E) - 1) by ring, abs_mul]
    gcongr
    exact hN.mass a b d hd ha hb
  · have : (ρ.nquad f [(a, b)]).2 ≤ max ea (er * |(ρ.nquad f [(a, b)]).1|) :=
      le_trans (le_abs_self _) (le_trans hsm.2 (le_trans he (le_max_left _ _)))
    simp only [FirstRule.adaptive, this, if_true]

/-- C201, without the grid: if the nodes of the first step are farther than `d` from the energy of a Breit-Wigner or Gauss resonance with the
width parameter `s`, then the quadrature between `a` and `b` gives no more than `s / d²` of the integrated cross section, reports an error that
is as small, and stops if this is below the tolerance; the true integral is the integrated cross section up to the fraction `s / d`. -/
theorem C201_missed {r : Reso} (hr : IsBreitWigner r ∨ IsGauss r) {s : ℝ} (hp : r.params = [r.er, s]) {a b d : ℝ} (hd : 0 < d)
    (ha : a ≤ r.er - d) (hb : r.er + d ≤ b) {ρ : FirstRule} {K : ℝ} (hK : ρ.Bounded K)
    (hfar : ∀ n ∈ ρ.nodes, d ≤ |a + (b - a) * n.1 - r.er|) {f : List ℝ → ℝ} (hf : ∀ E, r.call E = .ok (.fin (f [E]))) :
    |(∫ E in a..b, f [E]) - r.ics| ≤ |r.ics| * (s / d) ∧
    |(ρ.nquad f [(a, b)]).1| ≤ (b - a) * ρ.weight * (|r.ics| * (s / d ^ 2)) ∧
    |(ρ.nquad f [(a, b)]).2| ≤ (b - a) * K * (|r.ics| * (s / d ^ 2)) ∧
    ∀ (epsabs epsrel : ℝ) (next : NQuad), (b - a) * K * (|r.ics| * (s / d ^ 2)) ≤ epsabs →
      ρ.adaptive epsabs epsrel next f [(a, b)] = ρ.nquad f [(a, b)] := by
  obtain ⟨hs, -, p, hN, hσ⟩ := narrow_of hr hp
  exact missed_of hN hs.le hσ hd ha hb hK hfar hf

/-- C201, without the grid: the same for pseudo-Voigt resonances, and for Voigt resonances, of the width `w` and the Doppler width `Δ`. -/
theorem C201_missed_voigt {r : Reso} {w Δ : ℝ} (hr : IsPseudoVoigtOf r w Δ ∨ IsVoigtOf r w Δ ∧ 0 < w ∧ 0 < Δ) {a b d : ℝ} (hd : 0 < d)
    (ha : a ≤ r.er - d) (hb : r.er + d ≤ b) {ρ : FirstRule} {K : ℝ} (hK : ρ.Bounded K)
    (hfar : ∀ n ∈ ρ.nodes, d ≤ |a + (b - a) * n.1 - r.er|) {f : List ℝ → ℝ} (hf : ∀ E, r.call E = .ok (.fin (f [E]))) :
    |(∫ E in a..b, f [E]) - r.ics| ≤ |r.ics| * ((4 * w + 6 * Δ) / d) ∧
    |(ρ.nquad f [(a, b)]).1| ≤ (b - a) * ρ.weight * (|r.ics| * ((4 * w + 6 * Δ) / d ^ 2)) ∧
    |(ρ.nquad f [(a, b)]).2| ≤ (b - a) * K * (|r.ics| * ((4 * w + 6 * Δ) / d ^ 2)) ∧
    ∀ (epsabs epsrel : ℝ) (next : NQuad), (b - a) * K * (|r.ics| * ((4 * w + 6 * Δ) / d ^ 2)) ≤ epsabs →
      ρ.adaptive epsabs epsrel next f [(a, b)] = ρ.nquad f [(a, b)] := by
  rcases hr with hr | ⟨hr, hw, hΔ⟩
  · obtain ⟨hok, h1, h2⟩ := hr.inv
    have hw := hok.w0
    have hΔ := hok.d0
    exact missed_of (pv_line r.er hok) (by positivity) (pv_sigma hok h1 h2) hd ha hb hK hfar hf
  · have h2 : 0 < Real.sqrt 2 := by positivity
    have h3 : 4 / 3 ≤ Real.sqrt 2 := Real.le_sqrt_of_sq_le (by norm_num)
    have hle : 8 * (Δ / Real.sqrt 2 + w / 2) ≤ 4 * w + 6 * Δ := by
      have : Δ / Real.sqrt 2 ≤ Δ / (4 / 3) := by gcongr
      linarith
    have hN := voigt_line r.er (show 0 < Δ / Real.sqrt 2 by positivity) (half_pos hw)
    refine missed_of ⟨hN.nonneg, fun x y hx hy => (hN.far x y hx hy).trans (by gcongr), fun x y z hz h4 h5 => (hN.mass x y z hz h4 h5).trans (by gcongr)⟩
      (by positivity) (hr.sigma hw hΔ) hd ha hb hK hfar hf

example : ∃ (r : Reso) (Δ : ℝ), IsVoigtOf r 2e-8 Δ ∧ (0 : ℝ) < 2e-8 ∧ 0 < Δ ∧ 1 ≤ r.er - 0.5 ∧ r.er + 0.5 ≤ 6 ∧ exMidpoint.Bounded 2 ∧
    ∀ n ∈ exMidpoint.nodes, (0.5 : ℝ) ≤ |1 + (6 - 1) * n.1 - r.er| := by
  obtain ⟨r, hr, he, -⟩ := exThin_resonance
  obtain ⟨l1, l2⟩ := exThin_doppler
  have hd : 0 < dopplerWidth exConst 11 293 2 := by linarith
  have h11 : (11 : ℝ) ≠ 0 := by norm_num
  refine ⟨{ r with dist := (mkPV r.er 2e-8 (dopplerWidth exConst 11 293 2)).toSemiDist, params := [] }, dopplerWidth exConst 11 293 2,
    ⟨exConst, exGround, exThin, 11, 293, none, ?_, by norm_num, by norm_num, by norm_num [exGround, exThin, groundState, state], exThin_width, ?_,
      by norm_num, Or.inl (by norm_num)⟩, by norm_num, hd, by simp only [he]; norm_num, by simp only [he]; norm_num, exMidpoint_bounded, ?_⟩
  · simp [mkVoigt, mkPseudoVoigt, hr, exThin_width, getDopplerWidth_ok exConst h11, Bind.bind, Except.bind, he]
  · simp [getDopplerWidth_ok exConst h11, he]
  · simp only [he]
    intro n hn
    simp only [exMidpoint, List.mem_cons, List.not_mem_nil, or_false] at hn
    rcases hn with rfl | rfl | rfl <;> norm_num [abs_of_pos, abs_of_neg]

/-- resonances of energy `E` and width `w` -/
theorem exThinLines {E : ℝ} (hE : 0 < E) : ∃ C, 0 < C ∧ ∀ w, 0 < w →
    ∃ r, IsBreitWigner r ∧ r.er = E ∧ r.params = [r.er, w / 2] ∧ r.ics = C * w := by
  refine ⟨(Real.pi * exConst.hbarc) ^ 2 / E ^ 2 * (2 / 4), ?_, fun w hw => ?_⟩
  · have := exConst.hbarc_pos
    have := Real.pi_pos
    positivity
  let inter : Level := state "1/2^-_1" 1 (-1) E [("3/2^-_1", w)]
  have hwi : inter.width = .ok w := by
    simp [inter, Level.width, Level.partialWidths, state, lookup, pyNumSum, bind, Except.bind, pure, Except.pure]
  obtain ⟨r, h, he, hi⟩ : ∃ r, mkResonance exConst exGround inter none noRecoil = .ok r ∧ r.er = E ∧
      r.ics = (Real.pi * exConst.hbarc) ^ 2 / E ^ 2 * (2 / 4) * w := by
    simp [inter, mkResonance, statFactor, fdiv, branchingRatio, integratedCS, exGround, groundState, state, Level.partialWidths, lookup, bind,
      Except.bind, noRecoil, hE.ne']
    have h3 : ¬ (3 : ℝ) + 1 = 0 := by norm_num
    rw [if_neg h3]
    refine ⟨_, rfl, rfl, ?_⟩
    simp only
    norm_num
  refine ⟨{ r with dist := cauchyDist, params := [r.er, 0.5 * w] }, ⟨exConst, exGround, inter, none, w, ?_, hwi, hw⟩, he, ?_, hi⟩
  · simp [mkBreitWigner, h, hwi, bind, Except.bind]
  · simp only [List.cons.injEq, true_and, and_true]
    norm_num
    ring

example : ∃ r s, IsBreitWigner r ∧ r.params = [r.er, s] ∧ (0 : ℝ) < 0.5 ∧ 1 ≤ r.er - 0.5 ∧ r.er + 0.5 ≤ 6 ∧ exMidpoint.Bounded 2 ∧ s = 1e-6 ∧
    ∀ n ∈ exMidpoint.nodes, (0.5 : ℝ) ≤ |1 + (6 - 1) * n.1 - r.er| := by
  obtain ⟨C, -, h⟩ := exThinLines (E := 2) (by norm_num)
  obtain ⟨r, h1, h2, h3, -⟩ := h 2e-6 (by norm_num)
  refine ⟨r, 2e-6 / 2, h1, h3, by norm_num, by rw [h2]; norm_num, by rw [h2]; norm_num, exMidpoint_bounded, by norm_num, ?_⟩
  rw [h2]
  intro n hn
  simp only [exMidpoint, List.mem_cons, List.not_mem_nil, or_false] at hn
  rcases hn with rfl | rfl | rfl <;> norm_num [abs_of_pos, abs_of_neg]

/-- C201: without the grid, no first step with finitely many nodes detects every resonance. Whatever the rule, the tolerance and the continuation,
and whatever multiple `M` of the reported error is granted: there is a Breit-Wigner resonance inside the limits for which the quadrature stops
after the first step with a deviation of more than `M` times the reported error and with less than a thousandth of the integral. -/
theorem C201_without_grid (ρ : FirstRule) {K : ℝ} (hK : ρ.Bounded K) {epsabs epsrel : ℝ} (he : 0 < epsabs) (next : NQuad) {a b : ℝ} (h0 : 0 ≤ a)
    (hab : a < b) (M : ℝ) :
    ∃ r : Reso, IsBreitWigner r ∧ a < r.er ∧ r.er < b ∧ ∀ f : List ℝ → ℝ, (∀ E, r.call E = .ok (.fin (f [E]))) →
      0 < ∫ E in a..b, f [E] ∧
      M * (ρ.adaptive epsabs epsrel next f [(a, b)]).2 < |(ρ.adaptive epsabs epsrel next f [(a, b)]).1 - ∫ E in a..b, f [E]| ∧
      |(ρ.adaptive epsabs epsrel next f [(a, b)]).1| < 1 / 1000 * ∫ E in a..b, f [E] := by
  -- an energy that is not a node
  let N : Set ℝ := {x | ∃ n ∈ ρ.nodes, x = a + (b - a) * n.1}
  have hN : N.Finite := by
    have : N = (fun n : ℝ × ℝ => a + (b - a) * n.1) '' {n | n ∈ ρ.nodes} := by
      ext x
      simp only [N, Set.mem_ofPred_eq, Set.mem_image]
      exact ⟨fun ⟨n, h, e⟩ => ⟨n, h, e.symm⟩, fun ⟨n, h, e⟩ => ⟨n, h, e.symm⟩⟩
    rw [this]
    exact (List.finite_toSet _).image _
  obtain ⟨E, ⟨hE1, hE2⟩, hEN⟩ := ((Set.Ioo_infinite hab).sdiff hN).nonempty
  -- a distance to all nodes and to the limits
  obtain ⟨d, hd, hda, hdb, hfar⟩ : ∃ d, 0 < d ∧ d ≤ E - a ∧ d ≤ b - E ∧ ∀ n ∈ ρ.nodes, d ≤ |a + (b - a) * n.1 - E| := by
    have key : ∀ ns : List (ℝ × ℝ), (∀ n ∈ ns, E ≠ a + (b - a) * n.1) → ∃ d, 0 < d ∧ ∀ n ∈ ns, d ≤ |a + (b - a) * n.1 - E| := by
      intro ns
      induction ns with
      | nil => exact fun _ => ⟨1, one_pos, by simp⟩
      | cons n ns ih =>
        intro h
        obtain ⟨d, hd, h1⟩ := ih fun m hm => h m (List.mem_cons_of_mem _ hm)
        refine ⟨min d |a + (b - a) * n.1 - E|, lt_min hd (abs_pos.2 (sub_ne_zero.2 (h n List.mem_cons_self).symm)), fun m hm => ?_⟩
        rcases List.mem_cons.1 hm with rfl | hm
        · exact min_le_right _ _
        · exact (min_le_left _ _).trans (h1 m hm)
    obtain ⟨d, hd, h⟩ := key ρ.nodes fun n hn e => hEN ⟨n, hn, e⟩
    exact ⟨min d (min (E - a) (b - E)), lt_min hd (lt_min (by linarith) (by linarith)), (min_le_right _ _).trans (min_le_left _ _),
      (min_le_right _ _).trans (min_le_right _ _), fun n hn => (min_le_left _ _).trans (h n hn)⟩
  obtain ⟨C, hC, hr⟩ := exThinLines (E := E) (by linarith)
  have hA : 0 < b - a := by linarith
  have hW : 0 ≤ ρ.weight := List.sum_nonneg fun x hx => by
    simp only [List.mem_map] at hx
    obtain ⟨n, -, rfl⟩ := hx
    exact abs_nonneg _
  obtain ⟨w, hw, hw1, b1, b2, b3, b4⟩ : ∃ w : ℝ, 0 < w ∧ w ≤ 1 ∧ (b - a) * |K| * C / d ^ 2 / epsabs * w ≤ 1 / 4000 ∧
      (b - a) * ρ.weight / d ^ 2 * w ≤ 1 / 4000 ∧ |M| * ((b - a) * |K|) / d ^ 2 * w ≤ 1 / 4000 ∧ 1 / d * w ≤ 1 / 4000 := by
    have n1 : 0 ≤ (b - a) * |K| * C / d ^ 2 / epsabs := by positivity
    have n2 : 0 ≤ (b - a) * ρ.weight / d ^ 2 := by positivity
    have n3 : 0 ≤ |M| * ((b - a) * |K|) / d ^ 2 := by positivity
    have n4 : 0 ≤ 1 / d := by positivity
    generalize (b - a) * |K| * C / d ^ 2 / epsabs = x1 at *
    generalize (b - a) * ρ.weight / d ^ 2 = x2 at *
    generalize |M| * ((b - a) * |K|) / d ^ 2 = x3 at *
    generalize 1 / d = x4 at *
    have hX : 0 < 4000 * (x1 + x2 + x3 + x4 + 1) := by positivity
    have e : ∀ x, x ≤ x1 + x2 + x3 + x4 + 1 → x * (1 / (4000 * (x1 + x2 + x3 + x4 + 1))) ≤ 1 / 4000 := by
      intro x hx
      rw [mul_one_div, div_le_div_iff₀ hX (by norm_num)]
      linarith
    refine ⟨1 / (4000 * (x1 + x2 + x3 + x4 + 1)), by positivity, ?_, e _ (by linarith), e _ (by linarith), e _ (by linarith), e _ (by linarith)⟩
    rw [div_le_one hX]
    linarith
  obtain ⟨r, hbw, her, hp, hi⟩ := hr w hw
  refine ⟨r, hbw, by rw [her]; exact hE1, by rw [her]; exact hE2, fun f hf => ?_⟩
  have hI : 0 < r.ics := by rw [hi]; positivity
  obtain ⟨h1, h2, h3, h4⟩ := C201_missed (a := a) (b := b) (Or.inl hbw) hp hd (by rw [her]; linarith) (by rw [her]; linarith) hK (by rw [her]; exact hfar) hf
  rw [abs_of_pos hI] at h1 h2 h3 h4
  have hKabs : (b - a) * K * (r.ics * (w / 2 / d ^ 2)) ≤ (b - a) * |K| * (r.ics * (w / 2 / d ^ 2)) := by
    gcongr
    exact le_abs_self K
  rw [h4 epsabs epsrel next (hKabs.trans ?_)]
  · generalize (ρ.nquad f [(a, b)]).1 = R at *
    generalize (ρ.nquad f [(a, b)]).2 = D at *
    generalize (∫ E in a..b, f [E]) = T at *
    have c1 : r.ics * (w / 2 / d) ≤ r.ics * (1 / 8000) := by
      have : w / 2 / d = 1 / d * w / 2 := by ring
      rw [this]
      exact mul_le_mul_of_nonneg_left (by linarith only [b4]) hI.le
    have c2 : (b - a) * ρ.weight * (r.ics * (w / 2 / d ^ 2)) ≤ r.ics * (1 / 8000) := by
      have : (b - a) * ρ.weight * (r.ics * (w / 2 / d ^ 2)) = r.ics * ((b - a) * ρ.weight / d ^ 2 * w / 2) := by ring
      rw [this]
      exact mul_le_mul_of_nonneg_left (by linarith only [b2]) hI.le
    have c3 : M * D ≤ r.ics * (1 / 8000) := by
      have g1 : M * D ≤ |M| * |D| := by rw [← abs_mul]; exact le_abs_self _
      have g2 : |M| * |D| ≤ |M| * ((b - a) * |K| * (r.ics * (w / 2 / d ^ 2))) := by
        gcongr
        exact h3.trans hKabs
      have g3 : |M| * ((b - a) * |K| * (r.ics * (w / 2 / d ^ 2))) = r.ics * (|M| * ((b - a) * |K|) / d ^ 2 * w / 2) := by ring
      have g4 : r.ics * (|M| * ((b - a) * |K|) / d ^ 2 * w / 2) ≤ r.ics * (1 / 8000) :=
        mul_le_mul_of_nonneg_left (by linarith only [b3]) hI.le
      linarith
    have hT := abs_le.1 (h1.trans c1)
    have hR := abs_le.1 (h2.trans c2)
    refine ⟨by linarith, ?_, ?_⟩
    · rw [abs_sub_comm]
      exact lt_of_lt_of_le (by linarith) (le_abs_self (T - R))
    · exact lt_of_le_of_lt (h2.trans c2) (by linarith)
  · rw [hi]
    have e1 : (b - a) * |K| * (C * w * (w / 2 / d ^ 2)) = epsabs * ((b - a) * |K| * C / d ^ 2 / epsabs * w) * (w / 2) := by
      field_simp
    rw [e1]
    calc epsabs * ((b - a) * |K| * C / d ^ 2 / epsabs * w) * (w / 2) ≤ epsabs * (1 / 4000) * (w / 2) := by gcongr
      _ ≤ epsabs * (1 / 4000) * (1 / 2) := by gcongr
      _ ≤ epsabs := by linarith

end Ries
