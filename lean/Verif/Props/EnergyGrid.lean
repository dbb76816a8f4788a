import Verif.Props.Grid
import Verif.Props.Coverage

/-! # Property C88: energy grid of a resonance for a coverage -/

open MeasureTheory Set

namespace Ries

/-- `g` has `n` equally spaced points from `lo` to `hi`. -/
def EquallySpaced (lo hi : ℝ) (n : ℤ) (g : List ℝ) : Prop :=
  (g.length : ℤ) = n ∧ g.head? = some lo ∧ g.getLast? = some hi ∧
    ∀ i, (h : i + 1 < g.length) → g[i + 1] - g[i] = (hi - lo) / (n - 1)

/-- From finite limits of the coverage interval to the grid. -/
theorem energyGrid_of_interval {r : Reso} {c lo hi : ℝ} {ci : Reso.Cov} (h : r.coverageInterval c = .ok ci) (hlo : ci.lo = .fin lo)
    (hhi : ci.hi = .fin hi) (hle : lo ≤ hi) (n : ℤ) (hn : 2 ≤ n) :
    ∃ g : List ℝ, r.energyGrid (.cov c) n = .ok (g.map .fin) ∧ EquallySpaced lo hi n g ∧ OrderedInside lo hi g := by
  obtain ⟨g, hg, h1, h2, h3, h4, h5⟩ := C10_energy_grid lo hi n hn
  refine ⟨g, ?_, ⟨h1, h2, h3, h4⟩, h5 hle⟩
  simp only [Reso.energyGrid, h, Bind.bind, Except.bind, hlo, hhi]
  exact hg

/-- C88: for a coverage below 1 the energy grid is ordered and equally spaced, and the cross section between its first and last
point is the requested fraction of the whole, with equal parts below and above. -/
theorem C88_energy_grid_partial {r : Reso} (h : IsBreitWigner r ∨ IsGauss r) {c : ℝ} (h0 : 0 ≤ c) (h1 : c < 1) (n : ℤ) (hn : 2 ≤ n)
    {σ : ℝ → ℝ} (hσ : r.HasSigma σ) :
    ∃ (g : List ℝ) (lo hi : ℝ), r.energyGrid (.cov c) n = .ok (g.map .fin) ∧ EquallySpaced lo hi n g ∧ OrderedInside lo hi g ∧
      (∫ E in lo..hi, σ E) = c * (∫ E, σ E) ∧ (∫ E in Iic lo, σ E) = ∫ E in Ioi hi, σ E := by
  obtain ⟨ci, σ', lo, hi, hci, hlo, hhi, hσ', hle, -, e1, e2, e3⟩ := C16_coverage_interval h h0 h1
  obtain rfl := sigma_unique hσ hσ'
  obtain ⟨g, hg, hs, ho⟩ := energyGrid_of_interval hci hlo hhi hle n hn
  exact ⟨g, lo, hi, hg, hs, ho, e1, by rw [e2, e3]⟩

/-- C88 for pseudo-Voigt resonances, up to the tolerance of the quantile search, for all but extreme coverages. -/
theorem C88_pseudoVoigt_partial {r : Reso} {w d : ℝ} (h : IsPseudoVoigtOf r w d) (hI : 0 ≤ r.ics) {c : ℝ} (h0 : 0 ≤ c) (h1 : c < 1)
    (hG : 2 * Real.sqrt (Real.log 2) * d + w ≤ 2.5e22 * ((1 - c) / 2) ^ 4) (n : ℤ) (hn : 2 ≤ n) {σ : ℝ → ℝ} (hσ : r.HasSigma σ) :
    ∃ (g : List ℝ) (lo hi : ℝ), r.energyGrid (.cov c) n = .ok (g.map .fin) ∧ EquallySpaced lo hi n g ∧ OrderedInside lo hi g ∧
      lo + hi = 2 * r.er ∧ (c - 3.8e-8 / max w (2 * Real.sqrt (Real.log 2) * d)) * (∫ E, σ E) ≤ ∫ E in lo..hi, σ E ∧
      ∫ E in lo..hi, σ E ≤ c * ∫ E, σ E := by
  obtain ⟨ci, σ', lo, hi, hci, hlo, hhi, hσ', hs, hle, e1, e2⟩ := C81_coverage h hI h0 h1 hG
  obtain rfl := sigma_unique hσ hσ'
  obtain ⟨g, hg, hsp, ho⟩ := energyGrid_of_interval hci hlo hhi hle n hn
  exact ⟨g, lo, hi, hg, hsp, ho, hs, e1, e2⟩

/-- C88 is false at coverage 1, where the quantiles are infinite: every point but the last is nan and the last is infinite. -/
theorem C88_refuted {r : Reso} (h : IsBreitWigner r ∨ IsGauss r) (m : ℕ) :
    r.energyGrid (.cov 1) (m + 2) = .ok (List.replicate (m + 1) .nan ++ [.pinf]) := by
  obtain ⟨ci, hci, hlo, hhi, -⟩ := C16_coverage_one h
  have h0 : ¬ ((m : ℤ) + 2 < 0) := by omega
  have h1 : ((m : ℤ) + 2).toNat = m + 2 := by omega
  have hm : (0 : ℝ) < 1 / ((((m : ℤ) + 2 : ℤ) : ℝ) - 1) := by push_cast; apply one_div_pos.2; linarith [(Nat.cast_nonneg m : (0:ℝ) ≤ m)]
  simp only [Reso.energyGrid, hci, Bind.bind, Except.bind, hlo, hhi]
  unfold linspace
  simp only [h0, if_false, h1, Except.ok.injEq]
  congr 1
  have e : (Fl.pinf.add (Fl.ninf.smul (-1))) = .pinf := by norm_num [Fl.smul, Fl.add]
  rw [e]
  have e2 : Fl.smul (1 / ((((m : ℤ) + 2 : ℤ) : ℝ) - 1)) .pinf = .pinf := by simp only [Fl.smul, if_pos hm]
  rw [e2, List.eq_replicate_iff]
  refine ⟨by simp, ?_⟩
  intro v hv
  obtain ⟨i, -, rfl⟩ := List.mem_map.1 hv
  rcases Nat.eq_zero_or_pos i with rfl | hi
  · simp [Fl.smul, Fl.add]
  · have : (0 : ℝ) < i := by exact_mod_cast hi
    simp [Fl.smul, Fl.add, this]

/-- The hypotheses are met. -/
example : ∃ (r : Reso) (σ : ℝ → ℝ), IsBreitWigner r ∧ r.HasSigma σ := by
  obtain ⟨r, h⟩ := exIsBreitWigner
  obtain ⟨F, p, Q, hA⟩ := analytic_of (Or.inl h)
  exact ⟨r, _, h, hA.sigma⟩

end Ries
