import Verif.Lemmas.RoundedIntegral
import Verif.Lemmas.RoundedProbGrid

/-! # Grids of equal probability with a rounded width -/

open Set Filter Topology

namespace Ries

theorem cauchy_moment (z : ℝ) : |z| * cauchyPdf 0 1 z ≤ 0.3 := by
  unfold cauchyPdf
  have hp := Real.pi_gt_three
  rw [mul_one_div, div_le_iff₀ (by positivity)]
  have : 0 ≤ (|z| - 1) ^ 2 := sq_nonneg _
  have e : |z| ^ 2 = z ^ 2 := sq_abs z
  simp only [sub_zero, div_one, mul_one]
  nlinarith [mul_nonneg (sub_nonneg.2 hp.le) (sq_nonneg z)]

theorem norm_moment (z : ℝ) : |z| * normPdf 0 1 z ≤ 0.3 := by
  unfold normPdf
  simp only [sub_zero, div_one, one_mul]
  have hsq : 2.5 ≤ Real.sqrt (2 * Real.pi) := by
    apply Real.le_sqrt_of_sq_le
    nlinarith [Real.pi_gt_d2]
  have he : Real.exp (-z ^ 2 / 2) ≤ 1 / (1 + z ^ 2 / 2) := by
    rw [show -z ^ 2 / 2 = -(z ^ 2 / 2) by ring, Real.exp_neg, ← one_div]
    apply one_div_le_one_div_of_le (by positivity)
    have := Real.add_one_le_exp (z ^ 2 / 2)
    linarith
  rw [mul_div_assoc', div_le_iff₀ (by positivity)]
  have h1 : |z| * Real.exp (-z ^ 2 / 2) ≤ 0.75 := by
    refine (mul_le_mul_of_nonneg_left he (abs_nonneg z)).trans ?_
    rw [mul_one_div, div_le_iff₀ (by positivity)]
    have e : |z| ^ 2 = z ^ 2 := sq_abs z
    nlinarith [sq_nonneg (|z| - 1.4)]
  linarith

/-- Rescaling the argument of a distribution function. -/
theorem cdf_scale {C c : ℝ → ℝ} (hC : GoodCDF C c) (hK : ∀ z, |z| * c z ≤ 0.3) (z : ℝ) {τ : ℝ} (hτ : |τ - 1| ≤ 1 / 50) :
    |C (z * τ) - C z| ≤ 0.31 * |τ - 1| := by
  obtain ⟨h1, h2⟩ := abs_le.1 hτ
  have hs : Convex ℝ (Icc (49 / 50 : ℝ) (51 / 50)) := convex_Icc _ _
  have hd : ∀ t ∈ Icc (49 / 50 : ℝ) (51 / 50), HasDerivWithinAt (fun t => C (z * t)) (c (z * t) * z) (Icc (49 / 50) (51 / 50)) t := by
    intro t _
    have hm : HasDerivAt (fun t : ℝ => z * t) z t := by simpa using (hasDerivAt_id t).const_mul z
    exact ((hC.deriv (z * t)).comp t hm).hasDerivWithinAt
  have hb : ∀ t ∈ Icc (49 / 50 : ℝ) (51 / 50), ‖c (z * t) * z‖ ≤ 0.31 := by
    intro t ht
    have t0 : (0 : ℝ) < t := by linarith [ht.1]
    have := hK (z * t)
    rw [abs_mul, abs_of_pos t0] at this
    have hc := hC.pos (z * t)
    rw [Real.norm_eq_abs, abs_mul, abs_of_pos hc]
    have hz : 0 ≤ c (z * t) * |z| := by positivity
    nlinarith [ht.1]
  have := hs.norm_image_sub_le_of_norm_hasDerivWithin_le hd hb (x := 1) (y := τ) ⟨by norm_num, by norm_num⟩ ⟨by linarith, by linarith⟩
  simpa [Real.norm_eq_abs] using this

open KN in
/-- A grid of equal probability that was computed with a rounded width. -/
theorem scaled_grid {pdf cdf ppf : ℝ → ℝ → ℝ → ℝ} {r : Reso} {l s s' u : ℝ} {n : ℕ}
    (hd : r.dist = scipyDist pdf cdf ppf (fun _ _ => .ninf) (fun _ _ => .pinf)) (hp : r.params = [l, s']) (hs : 0 < s)
    (hu : 0 ≤ u) (hu1 : u < 1) (hrel : Rel u n s' s) (hn : (n : ℝ) * u ≤ 1 / 200)
    {C c : ℝ → ℝ} (hC : GoodCDF C c) (hK : ∀ z, |z| * c z ≤ 0.3) (hstd : ∀ t, 0 < t → ∀ x, cdf l t x = C ((x - l) / t))
    (hg : GoodCDF (cdf l s') (pdf l s')) (hQ : ∀ q, 0 < q → q < 1 → cdf l s' (ppf l s' q) = q) {M : ℝ}
    (hM : ∀ x, pdf l s' x ≤ M) {fl : ℝ → ℝ} (hfl : Rounding u fl) (hmono : Monotone fl)
    (hidem : ∀ x, fl (fl x) = fl x) (h1 : fl 1 = 1) {a b : ℝ} (ha : fl a = a) (hb : fl b = b) (m : ℕ)
    (hab : a < b) (hF : (12 * (m + 1) + n) * u ≤ cdf l s b - cdf l s a) :
    ∃ g : List ℝ, r.probGridR fl a b m = .ok (some (g.map .fin)) ∧ g.length = m + 2 ∧ g.head? = some a ∧
      g.getLast? = some b ∧ OrderedInside a b g ∧ ∀ i, (h : i + 1 < g.length) →
        cdf l s g[i + 1] - cdf l s g[i] ≤ (cdf l s b - cdf l s a) / (m + 1) + u * (24 + 1.28 * n + 2 * M * max |a| |b|) := by
  have hs' : 0 < s' := hrel.pos hu1 hs
  set τ := s / s' with hτ
  have hn0 : (0 : ℝ) ≤ n := Nat.cast_nonneg n
  have hτ1 : |τ - 1| ≤ 1.01 * n * u := by
    have h2 := ((Rel.refl (n := 0) hu hu1 s).div hu1 hrel).abs_le hu (by simpa using hn)
    rw [div_self hs.ne'] at h2
    simpa using h2
  have hτ2 : |τ - 1| ≤ 1 / 50 := by nlinarith
  have hnu : 0 ≤ n * u := by positivity
  have hclose : ∀ x, |cdf l s' x - cdf l s x| ≤ 0.32 * (n * u) := by
    intro x
    rw [hstd s hs, hstd s' hs', show (x - l) / s' = (x - l) / s * τ by rw [hτ]; field_simp]
    refine (cdf_scale hC hK _ hτ2).trans ?_
    nlinarith
  have ca := abs_le.1 (hclose a)
  have cb := abs_le.1 (hclose b)
  obtain ⟨g, e1, e2, e3, e4, e5, e6⟩ := rounded_grid_scipy hd hp hs' hg hQ hM hu hfl hmono hidem h1 ha hb m hab (by nlinarith)
  refine ⟨g, e1, e2, e3, e4, e5, fun i h => ?_⟩
  have q1 := abs_le.1 (e6 i (by omega))
  have q2 := abs_le.1 (e6 (i + 1) h)
  have c1 := abs_le.1 (hclose g[i])
  have c2 := abs_le.1 (hclose g[i + 1])
  have hm : (0 : ℝ) < m + 1 := by positivity
  have hdiv : (cdf l s' b - cdf l s' a) / (m + 1) ≤ (cdf l s b - cdf l s a) / (m + 1) + 0.64 * (n * u) := by
    rw [div_le_iff₀ hm, add_mul, div_mul_cancel₀ _ hm.ne']
    have : 0 ≤ (n * u) * (m : ℝ) := by positivity
    linarith
  push_cast at q2
  have e : ((i : ℝ) + 1) * ((cdf l s' b - cdf l s' a) / (m + 1)) = i * ((cdf l s' b - cdf l s' a) / (m + 1)) + (cdf l s' b - cdf l s' a) / (m + 1) := by ring
  rw [e] at q2
  linarith [q1.1, q2.2, c1.2, c2.1]

end Ries
