import Verif.Spec.NarrowPeaks
import Verif.Spec.Integral
import Verif.Lemmas.Tails
import Verif.Props.QuadPartition
import Verif.Props.Resonance
import Verif.Props.VoigtCoverage

/-! # Lemmas for property C201 -/

open MeasureTheory

namespace Ries

theorem exp_neg_half_sq (y : ℝ) : Real.exp (-y ^ 2 / 2) * (1 + y ^ 2 / 2) ≤ 1 := by
  have h := Real.add_one_le_exp (y ^ 2 / 2)
  have e : Real.exp (-y ^ 2 / 2) * Real.exp (y ^ 2 / 2) = 1 := by rw [← Real.exp_add, show -y ^ 2 / 2 + y ^ 2 / 2 = 0 by ring, Real.exp_zero]
  nlinarith [Real.exp_pos (-y ^ 2 / 2)]

theorem cauchyPdf_far (l : ℝ) {s d x : ℝ} (hs : 0 < s) (hd : 0 < d) (hx : d ≤ |x - l|) : cauchyPdf l s x ≤ s / d ^ 2 := by
  have hd2 : d ^ 2 ≤ (x - l) ^ 2 := by rw [← sq_abs (x - l)]; nlinarith
  have hpi : 1 ≤ Real.pi := by linarith [Real.pi_gt_three]
  have e : cauchyPdf l s x = s / (Real.pi * (s ^ 2 + (x - l) ^ 2)) := by
    unfold cauchyPdf
    field_simp
  rw [e]
  have h1 : d ^ 2 ≤ Real.pi * (s ^ 2 + (x - l) ^ 2) := by nlinarith [sq_nonneg s, sq_nonneg (x - l)]
  gcongr

theorem normPdf_far (l : ℝ) {s d x : ℝ} (hs : 0 < s) (hd : 0 < d) (hx : d ≤ |x - l|) : normPdf l s x ≤ s / d ^ 2 := by
  have hd2 : d ^ 2 ≤ (x - l) ^ 2 := by rw [← sq_abs (x - l)]; nlinarith
  have hpi := Real.pi_gt_three
  have hr : 2 ≤ Real.sqrt (2 * Real.pi) := by
    rw [show (2 : ℝ) = Real.sqrt 4 by rw [show (4 : ℝ) = 2 ^ 2 by norm_num, Real.sqrt_sq (by norm_num)]]
    apply Real.sqrt_le_sqrt
    rw [show Real.sqrt 4 = 2 by rw [show (4 : ℝ) = 2 ^ 2 by norm_num, Real.sqrt_sq (by norm_num)]]
    linarith
  unfold normPdf
  have h := exp_neg_half_sq ((x - l) / s)
  rw [div_le_div_iff₀ (by positivity) (by positivity)]
  set y := (x - l) / s with hy
  have hxy : (x - l) ^ 2 = y ^ 2 * s ^ 2 := by rw [hy]; field_simp
  have hE := Real.exp_pos (-y ^ 2 / 2)
  have h1 : Real.exp (-y ^ 2 / 2) * y ^ 2 ≤ 2 := by nlinarith
  calc Real.exp (-y ^ 2 / 2) * d ^ 2 ≤ Real.exp (-y ^ 2 / 2) * (y ^ 2 * s ^ 2) := by rw [← hxy]; gcongr
    _ = Real.exp (-y ^ 2 / 2) * y ^ 2 * s ^ 2 := by ring
    _ ≤ 2 * s ^ 2 := by gcongr
    _ ≤ Real.sqrt (2 * Real.pi) * s ^ 2 := by gcongr
    _ = s * (s * Real.sqrt (2 * Real.pi)) := by ring

/-- A distribution around `l` with the width `s`: what all shapes have in common. -/
structure NarrowAt (p : ℝ → ℝ) (l s : ℝ) : Prop where
  nonneg : ∀ x, 0 ≤ p x
  far : ∀ d x, 0 < d → d ≤ |x - l| → p x ≤ s / d ^ 2
  mass : ∀ a b d, 0 < d → a ≤ l - d → l + d ≤ b → |(∫ x in a..b, p x) - 1| ≤ s / d

theorem GoodCDF.mass {F p : ℝ → ℝ} (h : GoodCDF F p) {l s : ℝ} (hw : ∀ d, 0 < d → 1 - s / d ≤ F (l + d) - F (l - d)) (a b d : ℝ) (hd : 0 < d)
    (ha : a ≤ l - d) (hb : l + d ≤ b) : |(∫ x in a..b, p x) - 1| ≤ s / d := by
  rw [h.intervalIntegral]
  have h1 := hw d hd
  have h2 := h.strictMono.monotone ha
  have h3 := h.strictMono.monotone hb
  have h4 := h.lt_one b
  have h5 := h.gt_zero a
  rw [abs_le]
  constructor <;> linarith

theorem cauchy_window' (l : ℝ) {s d : ℝ} (hs : 0 < s) (hd : 0 < d) : 1 - s / d ≤ cauchyCdf l s (l + d) - cauchyCdf l s (l - d) := by
  refine le_trans ?_ (cauchy_window l hs hd)
  have hpi := Real.pi_gt_three
  have : 2 * s / (Real.pi * d) ≤ s / d := by
    rw [div_le_div_iff₀ (by positivity) hd]
    nlinarith [mul_pos hs hd]
  linarith

theorem exp_neg_half_le {y : ℝ} (hy : 0 < y) : Real.exp (-y ^ 2 / 2) ≤ 1 / y := by
  have h := exp_neg_half_sq y
  have hE := Real.exp_pos (-y ^ 2 / 2)
  rw [le_div_iff₀ hy]
  nlinarith [sq_nonneg (y - 1)]

theorem norm_window' (l : ℝ) {s d : ℝ} (hs : 0 < s) (hd : 0 < d) : 1 - s / d ≤ normCdf l s (l + d) - normCdf l s (l - d) := by
  refine le_trans ?_ (norm_window l hs hd.le)
  have h := exp_neg_half_le (div_pos hd hs)
  rw [one_div_div] at h
  linarith

theorem cauchy_line (l : ℝ) {s : ℝ} (hs : 0 < s) : NarrowAt (cauchyPdf l s) l s where
  nonneg x := (cauchyPdf_pos hs l x).le
  far _ _ hd hx := cauchyPdf_far l hs hd hx
  mass := (cauchy_good l hs).mass fun _ hd => cauchy_window' l hs hd

theorem norm_line (l : ℝ) {s : ℝ} (hs : 0 < s) : NarrowAt (normPdf l s) l s where
  nonneg x := (normPdf_pos hs l x).le
  far _ _ hd hx := normPdf_far l hs hd hx
  mass := (norm_good l hs).mass fun _ hd => norm_window' l hs hd

theorem pv_line (l : ℝ) {w d : ℝ} (h : PV.Ok w d) : NarrowAt (mkPV l w d).pdfR l (4 * w + 6 * d) := by
  obtain ⟨e0, e1⟩ := h.eta_bounds (er := l)
  have hG := h.gamma_pos (er := l)
  have hn := h.normScale_pos (er := l)
  have hc := h.cauchyScale_pos (er := l)
  have hlog : Real.sqrt (Real.log 2) ≤ 1 := Real.sqrt_le_iff.2 ⟨zero_le_one, by linarith [Real.log_two_lt_d9]⟩
  have hlog' : 1 / 2 ≤ Real.sqrt (Real.log 2) := by
    apply Real.le_sqrt_of_sq_le
    linarith [Real.log_two_gt_d9]
  have hw := h.w0
  have hd := h.d0
  have hle : (mkPV l w d).bigGamma ≤ w + 2 * d := by
    have h1 : (mkPV l w d).bigGamma ≤ 2 * Real.sqrt (Real.log 2) * d + w := pvGamma_le_add h.g0 h.w0
    nlinarith
  have c1 : (mkPV l w d).cauchyScale ≤ 4 * w + 6 * d := by
    have e : (mkPV l w d).cauchyScale = 0.5 * (0.5 * (mkPV l w d).bigGamma) := rfl
    rw [e]; linarith
  have n1 : (mkPV l w d).normScale ≤ 4 * w + 6 * d := by
    have e : (mkPV l w d).normScale = (mkPV l w d).bigGamma / (2 * Real.sqrt (Real.log 2)) / Real.sqrt 2 := rfl
    have h2 : 1 ≤ Real.sqrt 2 := Real.one_le_sqrt.2 (by norm_num)
    rw [e]
    have : (mkPV l w d).bigGamma / (2 * Real.sqrt (Real.log 2)) / Real.sqrt 2 ≤ (mkPV l w d).bigGamma := by
      rw [div_div, div_le_iff₀ (by positivity)]
      nlinarith [mul_le_mul (show (1 : ℝ) ≤ 2 * Real.sqrt (Real.log 2) by linarith) h2 zero_le_one (by positivity)]
    linarith
  have hS : ∀ x, 0 < x → (1 - (mkPV l w d).eta) * ((mkPV l w d).normScale / x) + (mkPV l w d).eta * ((mkPV l w d).cauchyScale / x) ≤
      (4 * w + 6 * d) / x := by
    intro x hx
    have a1 : (mkPV l w d).normScale / x ≤ (4 * w + 6 * d) / x := by gcongr
    have a2 : (mkPV l w d).cauchyScale / x ≤ (4 * w + 6 * d) / x := by gcongr
    nlinarith
  have hf : ∀ x, (mkPV l w d).pdfR x = (1 - (mkPV l w d).eta) * normPdf l (mkPV l w d).normScale x + (mkPV l w d).eta * cauchyPdf l (mkPV l w d).cauchyScale x :=
    fun _ => rfl
  have hF : ∀ x, (mkPV l w d).cdfR x = (1 - (mkPV l w d).eta) * normCdf l (mkPV l w d).normScale x + (mkPV l w d).eta * cauchyCdf l (mkPV l w d).cauchyScale x :=
    fun _ => rfl
  generalize (mkPV l w d).eta = η at *
  refine ⟨fun x => (h.good.pos x).le, fun x y hx hy => ?_, h.good.mass fun x hx => ?_⟩
  · rw [hf]
    have a1 := normPdf_far l hn hx hy
    have a2 := cauchyPdf_far l hc hx hy
    have a3 := hS (x ^ 2) (by positivity)
    nlinarith
  · rw [hF, hF]
    have a1 := norm_window' l hn hx
    have a2 := cauchy_window' l hc hx
    have a3 := hS x hx
    nlinarith

theorem voigt_line (l : ℝ) {s g : ℝ} (hs : 0 < s) (hg : 0 < g) : NarrowAt (voigtDensity l s g) l (8 * (s + g)) := by
  have hi := voigt_integrable l hs hg
  have hp := voigt_pos l hs hg
  have hw : ∀ d, 0 < d → 1 - 2 * (s + g) / d ≤ ∫ x in (l - d)..(l + d), voigtDensity l s g x := by
    intro d hd
    refine le_trans ?_ (voigt_window l hs hg hd)
    have h1 := exp_neg_half_le (show 0 < d / s / 2 by positivity)
    rw [show -(d / s / 2) ^ 2 / 2 = -(d / s) ^ 2 / 8 by ring, show 1 / (d / s / 2) = 2 * s / d by field_simp] at h1
    have h2 : 4 * g / (Real.pi * d) ≤ 2 * g / d := by
      rw [div_le_div_iff₀ (by positivity) hd]
      nlinarith [mul_pos hg hd, Real.pi_gt_three]
    have h3 : 2 * (s + g) / d = 2 * s / d + 2 * g / d := by ring
    linarith
  have hle : ∀ a b, a ≤ b → (∫ x in a..b, voigtDensity l s g x) ≤ 1 := by
    intro a b hab
    rw [← voigt_integral l hs hg, intervalIntegral.integral_of_le hab]
    exact setIntegral_le_integral hi (Filter.Eventually.of_forall fun x => (hp x).le)
  have hsub : ∀ a b, IntervalIntegrable (voigtDensity l s g) volume a b := fun a b => hi.intervalIntegrable
  have hnn : ∀ a b, a ≤ b → 0 ≤ ∫ x in a..b, voigtDensity l s g x := fun a b hab =>
    intervalIntegral.integral_nonneg hab fun x _ => (hp x).le
  refine ⟨fun x => (hp x).le, fun d x hd hx => ?_, fun a b d hd ha hb => ?_⟩
  · -- the density times half the distance is at most the probability beyond half the distance
    have hP := voigt_peaked l hs hg
    have e1 : voigtDensity l s g x ≤ voigtDensity l s g (l + d) := by
      have := hP.le_of_abs (d := d) (e := x - l) (by rwa [abs_of_pos hd])
      rwa [add_sub_cancel] at this
    have e2 : d / 2 * voigtDensity l s g (l + d) ≤ ∫ y in (l + d / 2)..(l + d), voigtDensity l s g y := by
      have h := intervalIntegral.integral_mono_on (μ := volume) (a := l + d / 2) (b := l + d) (f := fun _ => voigtDensity l s g (l + d))
        (g := voigtDensity l s g) (by linarith) intervalIntegrable_const (hsub _ _) fun y hy => by
          have := hP.le_of_abs (d := y - l) (e := d) (by rw [abs_of_pos hd, abs_of_nonneg (by linarith [hy.1])]; linarith [hy.2])
          rwa [add_sub_cancel] at this
      rw [intervalIntegral.integral_const, smul_eq_mul] at h
      linarith [h, show l + d - (l + d / 2) = d / 2 by ring, congrArg (· * voigtDensity l s g (l + d)) (show l + d - (l + d / 2) = d / 2 by ring)]
    have e3 : (∫ y in (l - d / 2)..(l + d / 2), voigtDensity l s g y) + ∫ y in (l + d / 2)..(l + d), voigtDensity l s g y ≤ 1 := by
      rw [intervalIntegral.integral_add_adjacent_intervals (hsub _ _) (hsub _ _)]
      exact hle _ _ (by linarith)
    have e4 := hw (d / 2) (by positivity)
    have e5 : d / 2 * voigtDensity l s g (l + d) ≤ 2 * (s + g) / (d / 2) := by linarith
    refine e1.trans ?_
    rw [le_div_iff₀ (by positivity)]
    rw [le_div_iff₀ (by positivity)] at e5
    nlinarith
  · have h1 := hle a b (by linarith)
    have h2 := hw d hd
    have h3 : (∫ x in a..b, voigtDensity l s g x) = (∫ x in a..(l - d), voigtDensity l s g x) + (∫ x in (l - d)..(l + d), voigtDensity l s g x)
        + ∫ x in (l + d)..b, voigtDensity l s g x := by
      rw [intervalIntegral.integral_add_adjacent_intervals (hsub _ _) (hsub _ _), intervalIntegral.integral_add_adjacent_intervals (hsub _ _) (hsub _ _)]
    have h4 := hnn a (l - d) ha
    have h5 := hnn (l + d) b hb
    have h6 : 2 * (s + g) / d ≤ 8 * (s + g) / d := by gcongr; norm_num
    rw [abs_le]
    constructor <;> linarith

/-- The parameters of a Breit-Wigner resonance. -/
theorem IsBreitWigner.shape {r : Reso} (h : IsBreitWigner r) : ∃ s, 0 < s ∧ r.params = [r.er, s] ∧ r.dist = cauchyDist := by
  obtain ⟨k, init, inter, final, w, hr, hw, hpos⟩ := h
  obtain ⟨r0, w', h0, hw', rfl⟩ := mkBreitWigner_inv hr
  rw [hw] at hw'; cases hw'
  exact ⟨0.5 * w, by linarith, rfl, rfl⟩

/-- The parameters of a Gauss resonance. -/
theorem IsGauss.shape {r : Reso} (h : IsGauss r) : ∃ s, 0 < s ∧ r.params = [r.er, s] ∧ r.dist = normDist := by
  obtain ⟨k, init, inter, amu, T, final, hr, ha, hT, hE⟩ := h
  obtain ⟨r0, h0, -, rfl⟩ := mkGauss_inv hr
  have her := (mkResonance_inv h0).1
  have hpos : 0 < r0.er := by rw [her]; unfold noRecoil; linarith
  exact ⟨_, div_pos (dopplerWidth_pos k ha hT hpos) (by positivity), rfl, rfl⟩

/-- Both kinds of resonances are narrow distributions. -/
theorem narrow_of {r : Reso} (h : IsBreitWigner r ∨ IsGauss r) {l s : ℝ} (hp : r.params = [l, s]) :
    0 < s ∧ l = r.er ∧ ∃ p, NarrowAt p l s ∧ r.HasSigma fun E => r.ics * p E := by
  rcases h with h | h
  · obtain ⟨s', hs, h1, h2⟩ := h.shape
    rw [hp] at h1; cases h1
    exact ⟨hs, rfl, _, cauchy_line _ hs, (analytic_cauchy h2 hp hs).sigma⟩
  · obtain ⟨s', hs, h1, h2⟩ := h.shape
    rw [hp] at h1; cases h1
    exact ⟨hs, rfl, _, norm_line _ hs, (analytic_norm h2 hp hs).sigma⟩

theorem FirstRule.covariant {ρ : FirstRule} (h : ρ.Homogeneous) : Covariant ρ.nquad := by
  intro f g l s m a b hs hg
  have e : ∀ t : ℝ, g [l + s * a + (l + s * b - (l + s * a)) * t] = m * f [a + (b - a) * t] := by
    intro t
    rw [show l + s * a + (l + s * b - (l + s * a)) * t = l + s * (a + (b - a) * t) by ring, hg]
  have hv : ρ.vals g (l + s * a) (l + s * b) = (ρ.vals f a b).map (m * ·) := by
    simp only [FirstRule.vals, e, List.map_map, Function.comp_def]
  simp only [FirstRule.nquad, hv, h (ρ.vals f a b) m, e]
  have h1 : (ρ.nodes.map fun n => n.2 * (m * f [a + (b - a) * n.1])) = (ρ.nodes.map fun n => n.2 * f [a + (b - a) * n.1]).map (m * ·) := by
    rw [List.map_map]
    exact List.map_congr_left fun n _ => by simp only [Function.comp]; ring
  rw [h1, List.sum_map_mul_left, List.map_id', show l + s * b - (l + s * a) = s * (b - a) by ring, abs_mul, abs_of_pos hs]
  ext <;> simp only <;> ring

theorem sum_weights_le {ns : List (ℝ × ℝ)} {F : ℝ → ℝ} {η : ℝ} (h : ∀ n ∈ ns, |F n.1| ≤ η) :
    |(ns.map fun n => n.2 * F n.1).sum| ≤ (ns.map fun n => |n.2|).sum * η := by
  induction ns with
  | nil => simp
  | cons n ns ih =>
    simp only [List.map_cons, List.sum_cons]
    have h1 := ih fun m hm => h m (List.mem_cons_of_mem _ hm)
    have h2 := h n List.mem_cons_self
    calc _ ≤ |n.2 * F n.1| + _ := abs_add_le _ _
      _ ≤ |n.2| * η + (ns.map fun n => |n.2|).sum * η := by
        refine add_le_add ?_ h1
        rw [abs_mul]; gcongr
      _ = _ := by ring

theorem FirstRule.small {ρ : FirstRule} {K : ℝ} (hK : ρ.Bounded K) {f : List ℝ → ℝ} {a b η : ℝ} (hη : 0 ≤ η)
    (h : ∀ n ∈ ρ.nodes, |f [a + (b - a) * n.1]| ≤ η) :
    |(ρ.nquad f [(a, b)]).1| ≤ |b - a| * ρ.weight * η ∧ |(ρ.nquad f [(a, b)]).2| ≤ |b - a| * K * η := by
  constructor
  · simp only [FirstRule.nquad]
    rw [abs_mul, mul_assoc]
    gcongr
    exact sum_weights_le (F := fun t => f [a + (b - a) * t]) h
  · simp only [FirstRule.nquad]
    rw [abs_mul, abs_abs, mul_assoc]
    gcongr
    refine hK _ _ hη fun v hv => ?_
    simp only [FirstRule.vals, List.mem_map] at hv
    obtain ⟨n, hn, rfl⟩ := hv
    exact h n hn

theorem pieces_affine (l s : ℝ) : ∀ x : List ℝ, pieces (x.map fun y => l + s * y) = (pieces x).map fun p => (l + s * p.1, l + s * p.2)
  | [] => rfl
  | [_] => rfl
  | a :: b :: xs => by
      have := pieces_affine l s (b :: xs)
      simp only [List.map_cons] at this ⊢
      simp only [pieces, List.map_cons, this]

/-- A partitioned quadrature with a covariant integrator. -/
theorem quadPartition_affine {nquad : NQuad} (hc : Covariant nquad) {f g : List ℝ → ℝ} {l s m : ℝ} (hs : 0 < s)
    (hg : ∀ x, g [l + s * x] = m * f [x]) (z : List ℝ) {V W : ℝ} (h : quadPartition nquad f z .none = .ok (V, W)) :
    quadPartition nquad g (z.map fun y => l + s * y) .none = .ok (m * s * V, |m| * s * W) := by
  simp only [quadPartition, LimArg.orEmpty, Bind.bind, Except.bind, quadLoop_eq, zero_add, Except.ok.injEq, Prod.mk.injEq] at h ⊢
  obtain ⟨h1, h2⟩ := h
  simp only [pieces_affine, List.map_map, Function.comp_def]
  have e : ∀ p : ℝ × ℝ, nquad g [(l + s * p.1, l + s * p.2)] = (m * s * (nquad f [p]).1, |m| * s * (nquad f [p]).2) :=
    fun p => hc f g l s m p.1 p.2 hs hg
  simp only [e, mul_pow, List.sum_map_mul_left]
  refine ⟨by rw [← h1], ?_⟩
  rw [← h2, Real.sqrt_mul (by positivity), show |m| ^ 2 * s ^ 2 = (|m| * s) ^ 2 by ring, Real.sqrt_sq (by positivity)]

end Ries
