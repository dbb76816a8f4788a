import Verif.Props.Coverage

/-!
# C13 and C15 for the pseudo-Voigt shape
-/

open MeasureTheory Set

namespace Ries

/-! ## C13 -/

/-- C13 is false of the code also for the pseudo-Voigt shape: for limits above a narrow Doppler-free resonance, the grid
jumps back below the lower limit. -/
theorem C13_pseudoVoigt_refuted {r : Reso} {w : ℝ} (h : IsPseudoVoigtOf r w 0) (hpos : 0 < w) (hw : w ≤ 3e-8) {a b : ℝ}
    (ha : r.er + w ≤ a) (hab : a < b) (n : ℤ) (hn : 3 ≤ n) :
    ∃ (x : ℝ) (g : List ℝ), r.probGrid (.lims a b) n = .ok (some ((a :: x :: g).map .fin)) ∧ x < a := by
  obtain ⟨hok, hd, hp⟩ := h.inv
  have hpi := Real.pi_lt_d2
  have hpi0 := Real.pi_pos
  obtain ⟨m, rfl⟩ : ∃ m : ℕ, n = ((m + 1 : ℕ) : ℤ) + 2 := ⟨(n - 3).toNat, by omega⟩
  have hgood := hok.good (er := r.er)
  have hhalf := hok.half (er := r.er)
  have h1 : 1 / 2 < (mkPV r.er w 0).cdfR a := by rw [← hhalf]; exact hgood.strictMono (by linarith)
  have h2 := hgood.lt_one b
  have hab' := hgood.strictMono hab
  have hbd : ∀ q ∈ gridQ ((mkPV r.er w 0).cdfR a) ((mkPV r.er w 0).cdfR b) (m + 1), 1 / 2 < q ∧ q < 1 := by
    intro q hq
    simp only [gridQ, List.mem_map, List.mem_range] at hq
    obtain ⟨i, hi, rfl⟩ := hq
    have := linspace_mem hab'.le (m + 1) hi
    exact ⟨by linarith, by linarith⟩
  have hx := narrow_ppf r.er hpos (by nlinarith) (gridQ ((mkPV r.er w 0).cdfR a) ((mkPV r.er w 0).cdfR b) (m + 1))
    (fun q hq => ⟨by linarith [(hbd q hq).1], (hbd q hq).2.le⟩)
    ⟨(mkPV r.er w 0).cdfR a, by
      simp only [gridQ, List.mem_map, List.mem_range]
      exact ⟨0, by omega, by simp⟩, h1.ne'⟩
  have hcdf : r.dist.cdf r.params [a, b] = .ok [.fin ((mkPV r.er w 0).cdfR a), .fin ((mkPV r.er w 0).cdfR b)] := by
    rw [hd, hp]; simp [PV.toDist, PV.cdf, hok.valid]
  obtain ⟨q0, q1, q2, qs, hq⟩ : ∃ q0 q1 q2 qs, gridQ ((mkPV r.er w 0).cdfR a) ((mkPV r.er w 0).cdfR b) (m + 1) = q0 :: q1 :: q2 :: qs := by
    generalize hl : gridQ ((mkPV r.er w 0).cdfR a) ((mkPV r.er w 0).cdfR b) (m + 1) = l
    have : l.length = m + 3 := by rw [← hl]; simp [gridQ]
    match l, this with
    | q0 :: q1 :: q2 :: qs, _ => exact ⟨q0, q1, q2, qs, rfl⟩
  refine ⟨r.er + (q1 - 1 / 2) * (Real.pi * w / 4),
    ((q2 :: qs).map fun q => r.er + (q - 1 / 2) * (Real.pi * w / 4)).dropLast ++ [b], ?_, ?_⟩
  · unfold Reso.probGrid
    simp only [Bind.bind, Except.bind, hcdf, linspace_nat]
    rw [hd, hp, pv_ppf_linspace, hx, hq]
    simp only [List.map_cons, Reso.setEnds, Except.map, List.dropLast_cons_cons, List.cons_append, List.map_append, List.map_nil,
      List.map_dropLast, List.map_map, Function.comp_def]
  · have := hbd q1 (by rw [hq]; simp)
    have hw' : Real.pi * w / 4 ≤ w := by nlinarith
    have h0 : 0 < Real.pi * w / 4 := by positivity
    nlinarith

/-- The refuted statement: not all pseudo-Voigt grids are ordered and inside the limits. -/
theorem C13_pseudoVoigt_not_ordered : ¬ ∀ (r : Reso) (w d : ℝ), IsPseudoVoigtOf r w d → ∀ a b : ℝ, a < b → ∀ n : ℤ, 2 ≤ n →
    ∀ g : List ℝ, r.probGrid (.lims a b) n = .ok (some (g.map .fin)) → OrderedInside a b g := by
  intro hall
  obtain ⟨r, h⟩ : ∃ r, IsPseudoVoigtOf r 1e-9 0 := by
    have hw : (state "1/2^-_1" 1 (-1) 2 [("3/2^-_1", 1e-9)]).width = .ok 1e-9 := by
      simp [Level.width, Level.partialWidths, state, lookup, pyNumSum, Bind.bind, Except.bind, pure, Except.pure]
    obtain ⟨r, hr⟩ : ∃ r, mkResonance exConst exGround (state "1/2^-_1" 1 (-1) 2 [("3/2^-_1", 1e-9)]) none noRecoil = .ok r := by
      simp [mkResonance, statFactor, fdiv, branchingRatio, integratedCS, exGround, exConst, groundState, state,
        Level.partialWidths, lookup, Bind.bind, Except.bind, noRecoil]
      rw [if_neg (by norm_num)]
      exact ⟨_, rfl⟩
    refine ⟨{ r with dist := (mkPV r.er 1e-9 0).toDist, params := [] }, exConst, exGround,
      state "1/2^-_1" 1 (-1) 2 [("3/2^-_1", 1e-9)], 11, 0, none, ?_, by norm_num, le_rfl,
      by norm_num [exGround, groundState, state], hw, ?_, by norm_num, Or.inl (by norm_num)⟩
    · simp [mkPseudoVoigt, hr, hw, getDopplerWidth_ok exConst (show (11 : ℝ) ≠ 0 by norm_num), Bind.bind, Except.bind,
        dopplerWidth]
    · rw [getDopplerWidth_ok exConst (show (11 : ℝ) ≠ 0 by norm_num)]
      simp [dopplerWidth]
  obtain ⟨x, g, hg, hx⟩ := C13_pseudoVoigt_refuted h (by norm_num) (by norm_num) (a := r.er + 1e-9) (b := r.er + 1) le_rfl
    (by norm_num) 3 le_rfl
  have := (hall r _ _ h _ _ (by norm_num) 3 (by norm_num) _ hg).2 x (by simp)
  linarith

/-- C13, the part that holds for the pseudo-Voigt shape: if the limits enclose the resonance energy and leave out a fraction `ε` on
either side, the grid is ordered and inside the limits (widths up to 2.5e22 ε⁴ MeV). -/
theorem C13_pseudoVoigt_partial {r : Reso} {w d : ℝ} (h : IsPseudoVoigtOf r w d) {ε : ℝ} (hε : 0 < ε)
    (hG : 2 * Real.sqrt (Real.log 2) * d + w ≤ 2.5e22 * ε ^ 4) (hI : 0 < r.ics) {σ : ℝ → ℝ} (hσ : r.HasSigma σ) {a b : ℝ}
    (ha : a ≤ r.er) (hb : r.er ≤ b) (hqa : ε * ∫ E, σ E ≤ ∫ E in Iic a, σ E) (hqb : ε * ∫ E, σ E ≤ ∫ E in Ioi b, σ E)
    (n : ℤ) (hn : 2 ≤ n) :
    ∃ g : List ℝ, r.probGrid (.lims a b) n = .ok (some (g.map .fin)) ∧ (g.length : ℤ) = n ∧ OrderedInside a b g := by
  obtain ⟨g, h1, h2, -, -, h3, -⟩ := C82_limits_grid h hε hG hI hσ ha hb hqa hqb n hn
  exact ⟨g, h1, h2, h3⟩

/-! ## C15 -/

/-- Shapes that accept a coverage: Breit-Wigner, Gauss, and pseudo-Voigt or Voigt with widths as in C81. -/
def AcceptsCoverage (c : ℝ) (r : Reso) : Prop :=
  IsBreitWigner r ∨ IsGauss r ∨
    ∃ w d, (IsPseudoVoigtOf r w d ∨ IsVoigtOf r w d) ∧ 2 * Real.sqrt (Real.log 2) * d + w ≤ 2.5e22 * ((1 - c) / 2) ^ 4

theorem AcceptsCoverage.grid {c : ℝ} {r : Reso} (h : AcceptsCoverage c r) (h0 : 0 < c) (h1 : c < 1) (m : ℕ) :
    ∃ g : List ℝ, r.probGrid (.cov c) ((m : ℤ) + 2) = .ok (some (g.map .fin)) ∧ g.length = m + 2 := by
  have hpv : ∀ w d, PV.Ok w d → r.dist.ppf = (mkPV r.er w d).toDist.ppf → r.params = [] →
      2 * Real.sqrt (Real.log 2) * d + w ≤ 2.5e22 * ((1 - c) / 2) ^ 4 →
      ∃ g : List ℝ, r.probGrid (.cov c) ((m : ℤ) + 2) = .ok (some (g.map .fin)) ∧ g.length = m + 2 := by
    intro w d hok hd hp hG
    obtain ⟨xs, hx, hat, -⟩ := hok.grid_central (er := r.er) (ε := (1 - c) / 2) (by linarith) (hok.gamma_le.trans hG)
      (a := 0.5 * (1 - c)) (b := 0.5 * (1 + c)) (by linarith) (by linarith) (by linarith) m
    refine ⟨xs, ?_, ?_⟩
    · unfold Reso.probGrid
      simp only [Bind.bind, Except.bind, linspace_nat]
      rw [hd, hp, pv_ppf_linspace, hx]
    · have := hat.length_eq
      simp [gridQ] at this
      omega
  have han : (∃ F p Q, Analytic r F p Q) →
      ∃ g : List ℝ, r.probGrid (.cov c) ((m : ℤ) + 2) = .ok (some (g.map .fin)) ∧ g.length = m + 2 := by
    rintro ⟨F, p, Q, hA⟩
    refine ⟨qgrid Q (0.5 * (1 - c)) (0.5 * (1 + c)) m, ?_, by simp [qgrid]⟩
    simp only [Reso.probGrid, Bind.bind, Except.bind, linspace_nat,
      hA.ppf_linspace (a := 0.5 * (1 - c)) (b := 0.5 * (1 + c)) (by linarith) (by linarith) (by linarith) m]
  rcases h with h | h | ⟨w, d, h | h, hG⟩
  · exact han h.analytic
  · exact han h.analytic
  · obtain ⟨hok, hd, hp⟩ := h.inv
    exact hpv w d hok (by rw [hd]) hp hG
  · obtain ⟨hok, hd, hp⟩ := h.inv
    exact hpv w d hok (by rw [hd]; rfl) hp hG

/-- C15 for sums of all four resonance shapes: every coverage in (0,1) is accepted by a sum, at any weights; the grid is sorted, has no
duplicates, and consists exactly of the points of the grids of the constituents. Missing, because false: sums with constant or nonresonant
constituents (`C15_refuted`). -/
theorem C15_all_shapes_partial (rs : List Reso) (ss : List Obj) (c : ℝ) (h0 : 0 < c) (h1 : c < 1) (h : ∀ r ∈ rs, AcceptsCoverage c r)
    (n : ℤ) (hn : 2 ≤ n) :
    ∃ g, (Obj.wsum (rs.map fun r => .leaf r.toLeaf) ss).probGrid (.cov c) n = .ok g ∧ g.Pairwise (· < ·) ∧
      ∀ v, v ∈ g ↔ ∃ r ∈ rs, ∃ gr : List ℝ, r.probGrid (.cov c) n = .ok (some (gr.map .fin)) ∧ v ∈ gr.map Fl.fin := by
  obtain ⟨m, rfl⟩ : ∃ m : ℕ, n = (m : ℤ) + 2 := ⟨(n - 2).toNat, by omega⟩
  have hg : ∀ o ∈ rs.map fun r => Obj.leaf r.toLeaf, ∃ g, o.probGrid (.cov c) ((m : ℤ) + 2) = .ok g := by
    intro o ho
    obtain ⟨r, hr, rfl⟩ := List.mem_map.1 ho
    obtain ⟨g, hg, -⟩ := (h r hr).grid h0 h1 m
    exact ⟨g.map .fin, by simp only [Obj.probGrid, Reso.toLeaf, Bind.bind, Except.bind, hg]⟩
  obtain ⟨hex, hall⟩ := C14_sum_grid (rs.map fun r => .leaf r.toLeaf) ss (.cov c) ((m : ℤ) + 2)
  obtain ⟨g, hg'⟩ := hex.2 hg
  refine ⟨g, hg', (hall g hg').1, fun v => ?_⟩
  rw [(hall g hg').2 v]
  constructor
  · rintro ⟨o, ho, go, hgo, hv⟩
    obtain ⟨r, hr, rfl⟩ := List.mem_map.1 ho
    obtain ⟨gr, hgr, -⟩ := (h r hr).grid h0 h1 m
    refine ⟨r, hr, gr, hgr, ?_⟩
    simp only [Obj.probGrid, Reso.toLeaf, Bind.bind, Except.bind, hgr, Except.ok.injEq] at hgo
    rwa [hgo]
  · rintro ⟨r, hr, gr, hgr, hv⟩
    refine ⟨_, List.mem_map_of_mem hr, gr.map .fin, ?_, hv⟩
    simp only [Obj.probGrid, Reso.toLeaf, Bind.bind, Except.bind, hgr]

/-- A pseudo-Voigt resonance of width 1e-5 MeV at zero temperature and a Breit-Wigner resonance accept a coverage of 99.99 %. -/
example : ∃ r r' : Reso, (∀ x ∈ [r, r'], AcceptsCoverage 0.9999 x) ∧ IsPseudoVoigtOf r 1e-5 0 ∧ IsBreitWigner r' := by
  obtain ⟨r, hr, he, hI⟩ := exMid_resonance
  have hP : IsPseudoVoigtOf { r with dist := (mkPV r.er 1e-5 0).toDist, params := [] } 1e-5 0 := by
    refine ⟨exConst, exGround, exMid, 11, 0, none, ?_, by norm_num, le_rfl,
      by norm_num [exGround, exMid, groundState, state], exMid_width, ?_, by norm_num, Or.inl (by norm_num)⟩
    · simp [mkPseudoVoigt, hr, exMid_width, getDopplerWidth_ok exConst (show (11 : ℝ) ≠ 0 by norm_num), Bind.bind, Except.bind,
        dopplerWidth]
    · rw [getDopplerWidth_ok exConst (show (11 : ℝ) ≠ 0 by norm_num)]
      simp [dopplerWidth]
  obtain ⟨r', h', -⟩ := exBreitWigner
  have hbw : IsBreitWigner r' := ⟨_, _, _, _, 4, h', exExcited_width, by norm_num⟩
  refine ⟨_, r', ?_, hP, hbw⟩
  intro x hx
  simp only [List.mem_cons, List.not_mem_nil, or_false] at hx
  rcases hx with rfl | rfl
  · exact Or.inr (Or.inr ⟨_, _, Or.inl hP, by norm_num⟩)
  · exact Or.inl hbw

end Ries
