import Verif.Lemmas.DarbouxConv
import Verif.Props.Darboux
import Verif.Props.Coverage
import Verif.Props.Shapes

/-! # Properties C86, C87: convergence of Darboux sums; Darboux sums of a resonance on its own grid -/

open MeasureTheory Set

namespace Ries

/-- C86: for a function continuous on `[a, b]` both sums are as near to the integral as desired on every sufficiently fine
partition. -/
theorem C86_converges {f : ℝ → ℝ} {a b : ℝ} (hab : a ≤ b) (hf : ContinuousOn f (Icc a b)) {ε : ℝ} (hε : 0 < ε) :
    ∃ δ > 0, ∀ x : List ℝ, x.head? = some a → x.getLast? = some b → x.IsChain (fun s t => s ≤ t ∧ t - s ≤ δ) →
      ∃ L D, darboux (vectorised f) x = .ok (L, D) ∧ 0 ≤ D ∧
        |L - ∫ t in a..b, f t| ≤ ε ∧ |L + D - ∫ t in a..b, f t| ≤ ε := by
  have hba : 0 < b - a + 1 := by linarith
  have huc := isCompact_Icc.uniformContinuousOn_of_continuous hf
  rw [Metric.uniformContinuousOn_iff] at huc
  obtain ⟨δ, hδ, hu⟩ := huc (ε / (b - a + 1)) (div_pos hε hba)
  refine ⟨δ / 2, by linarith, fun x h1 h2 hx => ?_⟩
  obtain ⟨x, xs, rfl⟩ : ∃ y ys, x = y :: ys := by
    cases x with
    | nil => simp at h1
    | cons y ys => exact ⟨y, ys, rfl⟩
  simp only [List.head?_cons, Option.some.injEq] at h1
  subst h1
  have h2' : (x :: xs).getLast (by simp) = b := by
    rw [List.getLast?_eq_some_getLast (by simp)] at h2
    simpa using h2
  have hpw : (x :: xs).Pairwise (· ≤ ·) := (hx.imp fun _ _ h => h.1).pairwise
  have hin : ∀ y ∈ x :: xs, y ∈ Icc x b := by
    intro y hy
    constructor
    · rcases List.mem_cons.1 hy with rfl | hy
      · exact le_rfl
      · exact (List.pairwise_cons.1 hpw).1 y hy
    · rw [← h2']; exact hpw.rel_getLast hy
  have key : (x :: xs).IsChain (SmallPiece f (fun t => ε / (b - x + 1) * t)) := by
    rw [List.isChain_iff_getElem] at hx ⊢
    intro i hi
    have hs := hin _ (List.getElem_mem (l := x :: xs) (n := i) (by omega))
    have ht := hin _ (List.getElem_mem (l := x :: xs) (n := i + 1) hi)
    obtain ⟨hst, hd⟩ := hx i hi
    generalize (x :: xs)[i] = s at *
    generalize (x :: xs)[i + 1] = t at *
    have hsub : Icc s t ⊆ Icc x b := Icc_subset_Icc hs.1 ht.2
    refine ⟨hst, (hf.mono (by rwa [uIcc_of_le hst])).intervalIntegrable, fun u hu' v hv' => ?_⟩
    have := hu u (hsub hu') v (hsub hv') (by
      rw [Real.dist_eq, abs_lt]
      constructor <;> linarith [hu'.1, hu'.2, hv'.1, hv'.2])
    rw [Real.dist_eq] at this
    rw [← mul_sub]
    exact mul_le_mul_of_nonneg_right this.le (by linarith)
  obtain ⟨L, D, e, hD, e1, e2⟩ := darboux_near x xs key
  rw [h2'] at e1 e2
  have hfin : ε / (b - x + 1) * b - ε / (b - x + 1) * x ≤ ε := by
    rw [← mul_sub, div_mul_eq_mul_div, div_le_iff₀ hba]
    nlinarith
  exact ⟨L, D, e, hD, e1.trans hfin, e2.trans hfin⟩

/-- The hypotheses hold for the sine on `[0, 3]`, which is not monotone there. -/
example : (0 : ℝ) ≤ 3 ∧ ContinuousOn Real.sin (Icc 0 3) ∧ ¬ MonotoneOn Real.sin (Icc 0 Real.pi) := by
  refine ⟨by norm_num, Real.continuous_sin.continuousOn, fun h => ?_⟩
  have := h ⟨by positivity, by linarith [Real.pi_pos]⟩ ⟨Real.pi_pos.le, le_rfl⟩ (by linarith [Real.pi_pos] : Real.pi / 2 ≤ Real.pi)
  rw [Real.sin_pi_div_two, Real.sin_pi] at this
  linarith

/-! ## C87 -/

/-- C87: with `n` points between the limits `a < b` both sums are within `2 σ(E_r) / min(σ(a), σ(b)) / (n - 1)` of the
integral, relative to the integral. -/
theorem C87_limits_partial {r : Reso} (h : IsBreitWigner r ∨ IsGauss r) (hI : 0 < r.ics) {a b : ℝ} (hab : a < b) (n : ℤ) (hn : 2 ≤ n)
    {σ : ℝ → ℝ} (hσ : r.HasSigma σ) :
    ∃ (g : List ℝ) (L D : ℝ), r.probGrid (.lims a b) n = .ok (some (g.map .fin)) ∧ darboux (vectorised σ) g = .ok (L, D) ∧ 0 ≤ D ∧
      |L - ∫ E in a..b, σ E| ≤ 2 * σ r.er / min (σ a) (σ b) * (∫ E in a..b, σ E) / (n - 1) ∧
      |L + D - ∫ E in a..b, σ E| ≤ 2 * σ r.er / min (σ a) (σ b) * (∫ E in a..b, σ E) / (n - 1) := by
  obtain ⟨g, σ', hg, hσ', hlen, hhead, hlast, hpw, hsh⟩ := C11_limits_grid h hab n hn
  obtain rfl := sigma_unique hσ hσ'
  obtain ⟨p, hp, hpos, hσp⟩ := peaked_of (r := r) (by tauto)
  obtain ⟨F, p', Q, hA⟩ := analytic_of h
  have ep := sigma_unique hσ hσp
  have ep' := sigma_unique hσ hA.sigma
  have hcont : Continuous σ := by
    rw [ep']; exact continuous_const.mul hA.good.cont
  have hpk : Peaked r.er σ := by rw [ep]; exact hp.const_mul hI
  have hσpos : ∀ E, 0 < σ E := by
    intro E; rw [ep]; exact mul_pos hI (hpos E)
  obtain ⟨x, xs, rfl⟩ : ∃ y ys, g = y :: ys := by
    cases g with
    | nil => simp at hhead
    | cons y ys => exact ⟨y, ys, rfl⟩
  simp only [List.head?_cons, Option.some.injEq] at hhead
  subst hhead
  have hlast' : (x :: xs).getLast (by simp) = b := by
    rw [List.getLast?_eq_some_getLast (by simp)] at hlast
    simpa using hlast
  have hin : ∀ y ∈ x :: xs, y ∈ Icc x b := by
    intro y hy
    constructor
    · rcases List.mem_cons.1 hy with rfl | hy
      · exact le_rfl
      · exact ((List.pairwise_cons.1 hpw).1 y hy).le
    · rw [← hlast']; exact (hpw.imp le_of_lt).rel_getLast hy
  set m := min (σ x) (σ b) with hm
  have hm0 : 0 < m := lt_min (hσpos _) (hσpos _)
  have hlow : ∀ t ∈ Icc x b, m ≤ σ t := by
    intro t ht
    rcases le_total t r.er with h1 | h1
    · exact (min_le_left _ _).trans (hpk.mono_left h1 ht.1)
    · exact (min_le_right _ _).trans (hpk.anti_right h1 ht.2)
  have hn1 : (0 : ℝ) < n - 1 := by
    have : (2 : ℝ) ≤ n := by exact_mod_cast hn
    linarith
  have hint : ∀ s t, IntervalIntegrable σ volume s t := fun s t => hcont.intervalIntegrable s t
  have hI0 : 0 < ∫ E in x..b, σ E := intervalIntegral.intervalIntegral_pos_of_pos (hint _ _) hσpos hab
  set v := (∫ E in x..b, σ E) / (n - 1) with hv
  have hv0 : 0 < v := div_pos hI0 hn1
  have key : (x :: xs).IsChain (SmallPiece σ (fun t => v / m * peakVar r.er σ t)) := by
    rw [List.isChain_iff_getElem]
    intro i hi
    have hs := hin _ (List.getElem_mem (l := x :: xs) (n := i) (by omega))
    have ht := hin _ (List.getElem_mem (l := x :: xs) (n := i + 1) hi)
    have hst : (x :: xs)[i] < (x :: xs)[i + 1] := (List.pairwise_iff_getElem.1 hpw) i (i + 1) (by omega) hi (by omega)
    have hshare := hsh i hi
    generalize (x :: xs)[i] = s at *
    generalize (x :: xs)[i + 1] = t at *
    refine ⟨hst.le, hint _ _, fun u hu w hw => ?_⟩
    have h1 : m * (t - s) ≤ v := by
      rw [← hshare]
      have := intervalIntegral.integral_mono_on hst.le (intervalIntegrable_const (c := m)) (hint s t)
        (fun y hy => hlow y ⟨hs.1.trans hy.1, hy.2.trans ht.2⟩)
      simpa [mul_comm] using this
    have h2 : t - s ≤ v / m := by rw [le_div_iff₀ hm0]; linarith
    have h3 := peakVar_bound hpk u hu w hw
    rw [← mul_sub, mul_comm (v / m)]
    exact mul_le_mul h3 h2 (by linarith) ((abs_nonneg _).trans h3)
  obtain ⟨L, D, e, hD, e1, e2⟩ := darboux_near x xs key
  rw [hlast'] at e1 e2
  have hfin : v / m * peakVar r.er σ b - v / m * peakVar r.er σ x ≤ 2 * σ r.er / m * (∫ E in x..b, σ E) / (n - 1) := by
    rw [← mul_sub]
    have := mul_le_mul_of_nonneg_left (peakVar_total hpk hσpos x b) (div_pos hv0 hm0).le
    refine this.trans (le_of_eq ?_)
    rw [hv]; field_simp
  exact ⟨_, L, D, hg, e, hD, e1.trans hfin, e2.trans hfin⟩

/-- The hypotheses are met. -/
example : ∃ (r : Reso) (σ : ℝ → ℝ), IsBreitWigner r ∧ 0 < r.ics ∧ r.HasSigma σ := by
  obtain ⟨r, h, -, hI⟩ := exMid_resonance
  have hB : IsBreitWigner { r with dist := cauchyDist, params := [r.er, 0.5 * 1e-5] } :=
    ⟨exConst, exGround, exMid, none, 1e-5, by simp [mkBreitWigner, h, exMid_width, Bind.bind, Except.bind], exMid_width, by norm_num⟩
  obtain ⟨F, p, Q, hA⟩ := analytic_of (Or.inl hB)
  exact ⟨_, _, hB, hI, hA.sigma⟩

/-- Around a peak the function is monotone on an interval whose interior does not contain the peak. -/
theorem peaked_piece {c s t : ℝ} {f : ℝ → ℝ} (hp : Peaked c f) (h : t ≤ c ∨ c ≤ s) :
    MonotoneOn f (Icc s t) ∨ AntitoneOn f (Icc s t) := by
  rcases h with h | h
  · exact Or.inl fun u _ v hv huv => hp.mono_left (hv.2.trans h) huv
  · exact Or.inr fun u hu v _ huv => hp.anti_right (h.trans hu.1) huv

/-- A sorted list containing `c` has no interval around `c`. -/
theorem chain_avoids {c : ℝ} {g : List ℝ} (hg : g.Pairwise (· ≤ ·)) (hc : c ∈ g) :
    g.IsChain (fun s t => t ≤ c ∨ c ≤ s) := by
  rw [List.isChain_iff_getElem]
  intro i hi
  obtain ⟨j, hj, rfl⟩ := List.getElem_of_mem hc
  rw [List.pairwise_iff_getElem] at hg
  rcases Nat.lt_or_ge i j with h | h
  · left
    rcases (Nat.succ_le_of_lt h).eq_or_lt with e | e
    · simp only [Nat.succ_eq_add_one] at e; subst e; exact le_rfl
    · exact hg (i + 1) j hi hj e
  · right
    rcases h.eq_or_lt with e | e
    · subst e; exact le_rfl
    · exact hg j i hj (by omega) e

/-- C87: the grid of a coverage with an odd number of points contains the resonance energy and the Darboux sums on it
bracket the covered part of the integral. -/
theorem C87_odd_grid {r : Reso} (h : IsBreitWigner r ∨ IsGauss r) (hI : 0 < r.ics) {c : ℝ} (h0 : 0 < c) (h1 : c < 1) (m : ℕ)
    {σ : ℝ → ℝ} (hσ : r.HasSigma σ) :
    ∃ (g : List ℝ) (L D : ℝ), r.probGrid (.cov c) (2 * m + 3) = .ok (some (g.map .fin)) ∧ r.er ∈ g ∧
      darboux (vectorised σ) g = .ok (L, D) ∧ L ≤ c * (∫ E, σ E) ∧ c * (∫ E, σ E) ≤ L + D := by
  obtain ⟨g, σ', lo, hi, hg, hσ', hlen, hhead, hlast, hpw, hcov, hlo, hhi, hsh⟩ := C12_coverage_grid h h0 h1 (2 * m + 3) (by omega)
  obtain rfl := sigma_unique hσ hσ'
  obtain ⟨p, hp, hpos, hσp⟩ := peaked_of (r := r) (by tauto)
  obtain ⟨F, p', Q, hA⟩ := analytic_of h
  have ep := sigma_unique hσ hσp
  have hpk : Peaked r.er σ := by rw [ep]; exact hp.const_mul hI
  have hQ : r.er ∈ g := by
    have hle : 0.5 * (1 - c) ≤ 0.5 * (1 + c) := by linarith
    have hgrid : r.probGrid (.cov c) (2 * m + 3) = .ok (some ((qgrid Q (0.5 * (1 - c)) (0.5 * (1 + c)) (2 * m + 1)).map .fin)) := by
      have e : (2 * (m : ℤ) + 3) = ((2 * m + 1 : ℕ) : ℤ) + 2 := by push_cast; ring
      rw [e]
      unfold Reso.probGrid
      simp only [bind, Except.bind, linspace_nat,
        hA.ppf_linspace (by linarith : (0:ℝ) < 0.5 * (1 - c)) (by linarith : 0.5 * (1 + c) < 1) hle]
      try rfl
    rw [hg] at hgrid
    simp only [Except.ok.injEq, Option.some.injEq] at hgrid
    have eg := List.map_injective_iff.2 (fun a b h => by simpa using h : Function.Injective Fl.fin) hgrid
    have hl : m + 1 < (qgrid Q (0.5 * (1 - c)) (0.5 * (1 + c)) (2 * m + 1)).length := by rw [qgrid_length]; omega
    have hm := List.getElem_mem hl
    rw [qgrid_get] at hm
    have ehalf : 0.5 * (1 - c) + ((m + 1 : ℕ) : ℝ) * ((0.5 * (1 + c) - 0.5 * (1 - c)) / (((2 * m + 1 : ℕ) : ℝ) + 1)) = 1 / 2 := by
      push_cast
      have : (2 * (m : ℝ) + 1 + 1) ≠ 0 := by positivity
      field_simp
      ring
    rw [ehalf] at hm
    have : Q (1 / 2) = r.er := by
      apply hA.good.strictMono.injective
      rw [hA.inv _ (by norm_num) (by norm_num)]
      symm
      apply hA.good.half_of_symm
      intro d
      have ep' := sigma_unique hσ hA.sigma
      have := hpk.symm d
      rw [ep'] at this
      exact mul_left_cancel₀ hI.ne' this
    rw [eg, ← this]; exact hm
  have hpw' : g.Pairwise (· ≤ ·) := hpw.imp le_of_lt
  have hne : g ≠ [] := by rintro rfl; simp at hhead
  obtain ⟨L, D, e, -, e1, e2⟩ := C61_brackets_integral σ g hne hpw'.isChain
    ((chain_avoids hpw' hQ).imp fun s t h => peaked_piece hpk h)
  have eh : g.head hne = lo := by
    rw [List.head?_eq_some_head hne] at hhead; simpa using hhead
  have el : g.getLast hne = hi := by
    rw [List.getLast?_eq_some_getLast hne] at hlast; simpa using hlast
  rw [eh, el, hcov] at e1 e2
  exact ⟨g, L, D, hg, hQ, e, e1, e2⟩

/-- C87 for pseudo-Voigt resonances, up to the tolerance of the quantile search. -/
theorem C87_odd_grid_pseudoVoigt_partial {r : Reso} {w d : ℝ} (h : IsPseudoVoigtOf r w d) (hI : 0 < r.ics) {c : ℝ} (h0 : 0 ≤ c) (h1 : c < 1)
    (hG : 2 * Real.sqrt (Real.log 2) * d + w ≤ 2.5e22 * ((1 - c) / 2) ^ 4) (m : ℕ) {σ : ℝ → ℝ} (hσ : r.HasSigma σ) :
    ∃ (g : List ℝ) (L D : ℝ), r.probGrid (.cov c) (2 * m + 3) = .ok (some (g.map .fin)) ∧ r.er ∈ g ∧
      darboux (vectorised σ) g = .ok (L, D) ∧ L ≤ c * (∫ E, σ E) ∧
      (c - 3.8e-8 / max w (2 * Real.sqrt (Real.log 2) * d)) * (∫ E, σ E) ≤ L + D := by
  obtain ⟨hok, hd, hp⟩ := h.inv
  obtain rfl := sigma_unique hσ (pv_sigma hok hd hp)
  obtain ⟨g, hx, hat, hsort⟩ := hok.grid_central (er := r.er) (ε := (1 - c) / 2) (by linarith) (hok.gamma_le.trans hG)
    (a := 0.5 * (1 - c)) (b := 0.5 * (1 + c)) (by linarith) (by linarith) (by linarith) (2 * m + 1)
  have hg : r.probGrid (.cov c) (2 * m + 3) = .ok (some (g.map .fin)) := by
    have e : (2 * (m : ℤ) + 3) = ((2 * m + 1 : ℕ) : ℤ) + 2 := by push_cast; ring
    rw [e]
    unfold Reso.probGrid
    simp only [Bind.bind, Except.bind, linspace_nat]
    rw [hd, hp, pv_ppf_linspace, hx]
  have hlen := hat.length_eq
  simp only [gridQ, List.length_map, List.length_range] at hlen
  have hpk : Peaked r.er (fun E => r.ics * (mkPV r.er w d).pdfR E) := hok.peaked.const_mul hI
  rw [List.forall₂_iff_get] at hat
  have hall := hat.2
  have half : 0.5 * (1 - c) + ((m + 1 : ℕ) : ℝ) * ((0.5 * (1 + c) - 0.5 * (1 - c)) / (((2 * m + 1 : ℕ) : ℝ) + 1)) = 1 / 2 := by
    push_cast
    have : (2 * (m : ℝ) + 1 + 1) ≠ 0 := by positivity
    field_simp
    ring
  have top : 0.5 * (1 - c) + ((2 * m + 2 : ℕ) : ℝ) * ((0.5 * (1 + c) - 0.5 * (1 - c)) / (((2 * m + 1 : ℕ) : ℝ) + 1)) = (1 + c) / 2 := by
    push_cast
    have : (2 * (m : ℝ) + 1 + 1) ≠ 0 := by positivity
    field_simp
    ring
  have bot : 0.5 * (1 - c) + ((0 : ℕ) : ℝ) * ((0.5 * (1 + c) - 0.5 * (1 - c)) / (((2 * m + 1 : ℕ) : ℝ) + 1)) = (1 - c) / 2 := by
    push_cast; ring
  have q0 := hall 0 (by simp [gridQ]) (by omega)
  have q1 := hall (m + 1) (by simp [gridQ]; omega) (by omega)
  have q2 := hall (2 * m + 2) (by simp [gridQ]) (by omega)
  simp only [gridQ, List.get_eq_getElem, List.getElem_map, List.getElem_range, half, top, bot] at q0 q1 q2
  have hmem : r.er ∈ g := by
    have e : g[m + 1] = r.er := le_antisymm (q1.2.2 le_rfl).1 (q1.2.1 le_rfl).1
    rw [← e]; exact List.getElem_mem _
  have hne : g ≠ [] := by rintro rfl; simp at hmem
  obtain ⟨L, D, e, -, e1, e2⟩ := C61_brackets_integral (fun E => r.ics * (mkPV r.er w d).pdfR E) g hne hsort.isChain
    ((chain_avoids hsort hmem).imp fun s t h => peaked_piece hpk h)
  have eh : g.head hne = g[0] := by rw [List.head_eq_getElem]
  have el : g.getLast hne = g[2 * m + 2] := by
    rw [List.getLast_eq_getElem]; congr 1; omega
  rw [eh, el, intervalIntegral.integral_const_mul, hok.good.intervalIntegral] at e1 e2
  have a0 := (q0.2.2 (by linarith)).2
  have a2 := (q2.2.1 (by linarith)).2
  have b0 := (abs_le.1 q0.1).2
  have b2 := (abs_le.1 q2.1).1
  have hel := hok.error_le (er := r.er)
  have e38 : (3.8e-8 : ℝ) / max w (2 * Real.sqrt (Real.log 2) * d) = 2 * (1.9e-8 / max w (2 * Real.sqrt (Real.log 2) * d)) := by
    rw [mul_div_assoc']; norm_num
  refine ⟨g, L, D, hg, hmem, e, ?_, ?_⟩
  · rw [integral_const_mul, hok.good.integral, mul_one]
    refine e1.trans ?_
    rw [mul_comm]
    exact mul_le_mul_of_nonneg_right (by linarith) hI.le
  · rw [integral_const_mul, hok.good.integral, mul_one]
    refine le_trans ?_ e2
    rw [mul_comm]
    exact mul_le_mul_of_nonneg_left (by rw [e38]; linarith) hI.le

/-- The hypotheses are met. -/
example : ∃ (r : Reso) (σ : ℝ → ℝ), IsPseudoVoigtOf r 1e-5 0 ∧ 0 < r.ics ∧ r.HasSigma σ ∧
    2 * Real.sqrt (Real.log 2) * 0 + 1e-5 ≤ 2.5e22 * ((1 - 0.9999) / 2) ^ 4 := by
  obtain ⟨r, hr, he, hI⟩ := exMid_resonance
  have hP : IsPseudoVoigtOf { r with dist := (mkPV r.er 1e-5 0).toDist, params := [] } 1e-5 0 := by
    refine ⟨exConst, exGround, exMid, 11, 0, none, ?_, by norm_num, le_rfl,
      by norm_num [exGround, exMid, groundState, state], exMid_width, ?_, by norm_num, Or.inl (by norm_num)⟩
    · simp [mkPseudoVoigt, hr, exMid_width, getDopplerWidth_ok exConst (show (11 : ℝ) ≠ 0 by norm_num), Bind.bind, Except.bind,
        dopplerWidth]
    · rw [getDopplerWidth_ok exConst (show (11 : ℝ) ≠ 0 by norm_num)]
      simp [dopplerWidth]
  obtain ⟨hok, hd, hp⟩ := hP.inv
  exact ⟨_, _, hP, hI, pv_sigma hok hd hp, by norm_num⟩

/-- C87 is false for an even number of points: with two points the two sums coincide and are smaller than the covered part of
the integral, for every coverage. -/
theorem C87_refuted {r : Reso} (h : IsBreitWigner r ∨ IsGauss r) (hI : 0 < r.ics) {c : ℝ} (h0 : 0 < c) (h1 : c < 1)
    {σ : ℝ → ℝ} (hσ : r.HasSigma σ) :
    ∃ (g : List ℝ) (L : ℝ), r.probGrid (.cov c) 2 = .ok (some (g.map .fin)) ∧
      darboux (vectorised σ) g = .ok (L, 0) ∧ L < c * ∫ E, σ E := by
  obtain ⟨g, σ', lo, hi, hg, hσ', hlen, hhead, hlast, hpw, hcov, hlo, hhi, hsh⟩ := C12_coverage_grid h h0 h1 2 le_rfl
  obtain rfl := sigma_unique hσ hσ'
  obtain ⟨p, hp, hpos, hσp⟩ := peaked_of (r := r) (by tauto)
  obtain ⟨F, p', Q, hA⟩ := analytic_of h
  have ep := sigma_unique hσ hσp
  have ep' := sigma_unique hσ hA.sigma
  have hpk : Peaked r.er σ := by rw [ep]; exact hp.const_mul hI
  have hcont : Continuous σ := by
    rw [ep']; exact continuous_const.mul hA.good.cont
  obtain ⟨x, y, rfl⟩ : ∃ x y, g = [x, y] := by
    have : g.length = 2 := by exact_mod_cast hlen
    exact List.length_eq_two.1 this
  simp only [List.head?_cons, Option.some.injEq] at hhead
  simp only [List.getLast?_cons_cons, List.getLast?_singleton, Option.some.injEq] at hlast
  subst hhead hlast
  have hxy : x < y := by simpa using hpw
  -- the ends are symmetric
  have hmid : x + y = 2 * r.er := by
    have hF : F (2 * r.er - y) = F x := by
      have hpp : Peaked r.er p' := by
        refine ⟨fun d => ?_, fun d e hd hde => ?_⟩
        · have := hpk.symm d
          rw [ep'] at this
          exact mul_left_cancel₀ hI.ne' this
        · have := hpk.anti d e hd hde
          rw [ep'] at this
          exact lt_of_mul_lt_mul_left this hI.le
      have tot : (∫ E, σ E) = r.ics := by
        rw [ep', integral_const_mul, hA.good.integral, mul_one]
      have tpos : 0 < ∫ E, σ E := by rw [tot]; exact hI
      rw [hA.good.reflect hpp]
      have e1 : ∫ E in Iic x, σ E = r.ics * F x := by
        rw [ep', integral_const_mul, hA.good.integral_Iic]
      have e2 : ∫ E in Ioi y, σ E = r.ics * (1 - F y) := by
        rw [ep', integral_const_mul, hA.good.integral_Ioi]
      rw [e1, tot] at hlo
      rw [e2, tot] at hhi
      have : r.ics * F x = r.ics * (1 - F y) := by rw [hlo, hhi]
      exact (mul_left_cancel₀ hI.ne' this).symm
    have := hA.good.strictMono.injective hF
    linarith
  have hσxy : σ y = σ x := by
    have := hpk.symm (y - r.er)
    rw [show r.er + (y - r.er) = y by ring, show r.er - (y - r.er) = x by linarith] at this
    exact this
  have hd := darboux_fun σ x [y]
  simp only [dsum, List.map_cons, List.map_nil, hσxy, min_self, max_self, sub_self, abs_zero] at hd
  refine ⟨_, _, hg, hd, ?_⟩
  rw [← hcov]
  have hlt : ∫ t in x..y, σ x < ∫ t in x..y, σ t := by
    refine intervalIntegral.integral_lt_integral_of_continuousOn_of_le_of_exists_lt hxy continuousOn_const hcont.continuousOn
      (fun t ht => ?_) ⟨r.er, ⟨by linarith, by linarith⟩, ?_⟩
    · rcases le_total t r.er with h' | h'
      · exact hpk.mono_left h' ht.1.le
      · rw [← hσxy]; exact hpk.anti_right h' ht.2
    · have := hpk.anti 0 (y - r.er) le_rfl (by linarith)
      rw [show r.er + (y - r.er) = y by ring, add_zero, hσxy] at this
      exact this
  simp only [intervalIntegral.integral_const, smul_eq_mul] at hlt
  linarith

end Ries
