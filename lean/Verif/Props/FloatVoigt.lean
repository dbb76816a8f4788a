import Verif.Model.RoundedVoigt
import Verif.Spec.FloatVoigt
import Verif.Props.FloatSumParts
import Verif.Props.VoigtCoverage
import Verif.Props.HalfWidth

/-! # C191: grids and integrals of Voigt resonances in floating point -/

open MeasureTheory Set

namespace Ries

variable {fl Fc pc vc F p : ℝ → ℝ} {u η ε : ℝ} {r rp : Reso} {w d : ℝ}

/-- a peaked cross section on a grid whose intervals have at most the length `δ` -/
theorem refined_lengths {f : ℝ → ℝ} {a b c δ : ℝ} (hp : Peaked c f) (h0 : ∀ x, 0 ≤ f x) (hf : Continuous f) {g : List ℝ} (hδ : 0 ≤ δ)
    (hhead : g.head? = some a) (hlast : g.getLast? = some b) (hord : OrderedInside a b g)
    (hd : ∀ i, (h : i + 1 < g.length) → g[i + 1] - g[i] ≤ δ) : RefinedWithin a b g f (2 * f c * δ) := by
  have hV := refined_variation (f := f) (V := fun x => if x ≤ c then f x else 2 * f c - f x) hf.continuousOn (fun s _ t _ hst => by
    have ps := hp.le_peak s
    have pt := hp.le_peak t
    by_cases h1 : t ≤ c
    · have := hp.mono_left h1 hst
      rw [if_pos h1, if_pos (hst.trans h1), abs_of_nonneg (by linarith)]
    · rw [if_neg h1]
      push Not at h1
      by_cases h2 : s ≤ c
      · rw [if_pos h2, abs_le]
        constructor <;> linarith
      · rw [if_neg h2]
        push Not at h2
        have := hp.anti_right h2.le hst
        rw [abs_of_nonpos (by linarith)]
        linarith) hδ hhead hlast hord hd
  refine fun x n hx e0 en hg c' _ => (hV x n hx e0 en hg c').trans ?_
  have hb : (if b ≤ c then f b else 2 * f c - f b) ≤ 2 * f c := by
    have := hp.le_peak b
    have := h0 b
    have := h0 c
    split <;> linarith
  have ha : 0 ≤ if a ≤ c then f a else 2 * f c - f a := by
    have := hp.le_peak a
    have := h0 a
    have := h0 c
    split <;> linarith
  rw [mul_comm (2 * f c)]
  exact mul_le_mul_of_nonneg_left (by linarith) hδ

/-- the lengths of intervals from their shares -/
theorem GoodCDF.length_le {c a b s t V : ℝ} (hF : GoodCDF F p) (hp : Peaked c p) (hs : a ≤ s) (hst : s ≤ t) (ht : t ≤ b) (hV : F t - F s ≤ V) :
    t - s ≤ V / min (p a) (p b) := by
  have hmin : 0 < min (p a) (p b) := lt_min (hF.pos a) (hF.pos b)
  rw [le_div_iff₀ hmin]
  refine le_trans ?_ hV
  rcases hst.eq_or_lt with rfl | hlt
  · simp
  · obtain ⟨ξ, h1, h2, h3⟩ := hF.slope hlt
    rw [h3, mul_comm]
    refine mul_le_mul_of_nonneg_right ?_ (by linarith)
    rcases le_total ξ c with h | h
    · exact (min_le_left _ _).trans (hp.mono_left h (by linarith))
    · exact (min_le_right _ _).trans (hp.anti_right h (by linarith))

namespace FloatVoigt

theorem voigt (h : FloatVoigt r rp w d fl Fc pc vc F p u η ε) : IsVoigtOf r w d := by
  obtain ⟨k, init, inter, amu, T, final, h1, -, h3, h4, h5, h6, h7⟩ := h.shapes
  exact ⟨k, init, inter, amu, T, final, h1, h3, h4, h5, h6, h7, h.natural.le, Or.inl h.natural⟩

theorem same (h : FloatVoigt r rp w d fl Fc pc vc F p u η ε) : rp.er = r.er ∧ rp.ics = r.ics := by
  obtain ⟨k, init, inter, amu, T, final, h1, h2, -⟩ := h.shapes
  simp only [mkVoigt, h2, Bind.bind, Except.bind] at h1
  split at h1
  · simp at h1
  split at h1
  · simp at h1
  simp only [Except.ok.injEq] at h1
  subst h1
  exact ⟨rfl, rfl⟩

/-- the grid is that of the pseudo-Voigt resonance -/
theorem grid (h : FloatVoigt r rp w d fl Fc pc vc F p u η ε) (mix : ℝ → Fl) (req : Req) (m : ℕ) :
    (r.semiComputed fl Fc pc vc mix).probGridF fl req m = (rp.computed fl Fc pc mix).probGridF fl req m := by
  have := h.same.1
  cases req <;> simp only [Reso.probGridF, Reso.semiComputed, Reso.computed, PV.semiComputed, this]

theorem interval (h : FloatVoigt r rp w d fl Fc pc vc F p u η ε) (mix : ℝ → Fl) (c : ℝ) :
    (r.semiComputed fl Fc pc vc mix).coverageIntervalF fl c = (rp.computed fl Fc pc mix).coverageIntervalF fl c := by
  have := h.same.1
  simp only [Reso.coverageIntervalF, Reso.semiComputed, Reso.computed, PV.semiComputed, this]

theorem sigma (h : FloatVoigt r rp w d fl Fc pc vc F p u η ε) : r.HasSigma fun E => r.ics * voigtDensity r.er (d / Real.sqrt 2) (w / 2) E :=
  h.voigt.sigma h.natural h.doppler

theorem pseudo (h : FloatVoigt r rp w d fl Fc pc vc F p u η ε) : rp.HasSigma fun E => r.ics * (mkPV r.er w d).pdfR E := by
  obtain ⟨hok, -, hs, -, -, -⟩ := h.float.facts
  rw [h.same.1, h.same.2] at hs
  exact hs

theorem density (h : FloatVoigt r rp w d fl Fc pc vc F p u η ε) (hI : 0 < r.ics) (x : ℝ) :
    r.dist.pdf r.params x = .ok (.fin (voigtDensity r.er (d / Real.sqrt 2) (w / 2) x)) := by
  have h1 := h.sigma x
  obtain ⟨-, hd, hp⟩ := h.voigt.inv
  simp only [Reso.call, hd, hp, PV.toSemiDist, if_true, Bind.bind, Except.bind, Except.ok.injEq] at h1 ⊢
  generalize voigtProfile (x - (mkPV r.er w d).er) (mkPV r.er w d).sigma (mkPV r.er w d).gamma = v at h1
  cases v with
  | fin y =>
    simp only [Fl.smul, Fl.fin.injEq] at h1 ⊢
    exact mul_left_cancel₀ hI.ne' h1
  | ninf => simp [Fl.smul, hI] at h1
  | pinf => simp [Fl.smul, hI] at h1
  | nan => simp [Fl.smul] at h1

end FloatVoigt

/-- C191, coverage intervals: the computed interval carries the fraction `c` of the Voigt cross section up to the accuracy of the search
and 2.1 times the ratio of natural width and Doppler width. -/
theorem C191_coverage_interval (h : FloatVoigt r rp w d fl Fc pc vc F p u η ε) (hI : 0 ≤ r.ics) (mix : ℝ → Fl) {c : ℝ} (h0 : 0 ≤ c)
    (hc : 1.001 * ε ≤ (1 - c) / 2) :
    ∃ (σ : ℝ → ℝ) (lo hi : ℝ) (warn : Option Fl), r.HasSigma σ ∧
      (r.semiComputed fl Fc pc vc mix).coverageIntervalF fl c = .ok ⟨.fin lo, .fin hi, warn, False⟩ ∧ (warn.isSome ↔ lo < 0) ∧
      |(∫ E in lo..hi, σ E) - c * ∫ E, σ E| ≤
        (7.8e-8 / max w (2 * Real.sqrt (Real.log 2) * d) + 2 * η + 4 * u + 2.1 * (w / d)) * ∫ E, σ E := by
  obtain ⟨σp, lo, hi, warn, k1, k2, k3, -, -, k6⟩ := C188_coverage_interval h.float (by rw [h.same.2]; exact hI) mix h0 hc
  have hsp := sigma_unique k1 h.pseudo
  obtain ⟨n1, n2, n3⟩ := h.voigt.near h.natural h.doppler hI
  rw [hsp, n2] at k6
  refine ⟨_, lo, hi, warn, h.sigma, by rw [h.interval]; exact k2, k3, ?_⟩
  rw [n1]
  have k7 : |(∫ E in lo..hi, r.ics * voigtDensity r.er (d / Real.sqrt 2) (w / 2) E) - ∫ E in lo..hi, r.ics * (mkPV r.er w d).pdfR E| ≤
      2.1 * (w / d) * r.ics := by
    rcases le_total lo hi with hle | hle
    · exact n3 lo hi hle
    · have := n3 hi lo hle
      rw [intervalIntegral.integral_symm hi lo, intervalIntegral.integral_symm hi lo, neg_sub_neg, abs_sub_comm]
      exact this
  have k8 := abs_sub_le (∫ E in lo..hi, r.ics * voigtDensity r.er (d / Real.sqrt 2) (w / 2) E)
    (∫ E in lo..hi, r.ics * (mkPV r.er w d).pdfR E) (c * r.ics)
  linarith

/-- the grid of a Voigt resonance between limits, with the shares of both cross sections -/
theorem voigt_grid (h : FloatVoigt r rp w d fl Fc pc vc F p u η ε) (hI : 0 < r.ics) (mix : ℝ → Fl) {a b : ℝ}
    (ha : 1.001 * ε ≤ F a) (hb : F b ≤ 1 - 1.001 * ε) (m : ℕ)
    (hm : 2 * (3.9e-8 / max w (2 * Real.sqrt (Real.log 2) * d) + 2 * η + 5 * u) * (m + 1) < F b - F a) :
    ∃ g : List ℝ, (r.semiComputed fl Fc pc vc mix).probGridF fl (.lims a b) m = .ok (some (g.map .fin)) ∧ g.length = m + 2 ∧
      g.head? = some a ∧ g.getLast? = some b ∧ g.Pairwise (· < ·) ∧ ∀ i, (hi : i + 1 < g.length) →
        F g[i + 1] - F g[i] ≤ (F b - F a) / (m + 1) + 2 * (3.9e-8 / max w (2 * Real.sqrt (Real.log 2) * d) + 2 * η + 5 * u) := by
  obtain ⟨g, g1, g2⟩ := increasing_grid h.float (by rw [h.same.2]; exact hI) mix ha hb m hm
  exact ⟨g, by rw [h.grid]; exact g1, g2⟩

/-- C191, grids between limits: `m + 2` strictly increasing points from the first to the second limit; every interval carries the same
share of the Voigt cross section up to the accuracy of the search and 2.1 times the ratio of the widths, once for the interval and once,
distributed over the intervals, for the whole range. -/
theorem C191_limits_grid (h : FloatVoigt r rp w d fl Fc pc vc F p u η ε) (hI : 0 < r.ics) (mix : ℝ → Fl) {a b : ℝ}
    (ha : 1.001 * ε ≤ F a) (hb : F b ≤ 1 - 1.001 * ε) (m : ℕ)
    (hm : 2 * (3.9e-8 / max w (2 * Real.sqrt (Real.log 2) * d) + 2 * η + 5 * u) * (m + 1) < F b - F a) :
    ∃ (σ : ℝ → ℝ) (g : List ℝ), r.HasSigma σ ∧ (r.semiComputed fl Fc pc vc mix).probGridF fl (.lims a b) m = .ok (some (g.map .fin)) ∧
      g.length = m + 2 ∧ g.head? = some a ∧ g.getLast? = some b ∧ g.Pairwise (· < ·) ∧
      NearShares σ g ((∫ E in a..b, σ E) / (m + 1))
        ((2 * (3.9e-8 / max w (2 * Real.sqrt (Real.log 2) * d) + 2 * η + 5 * u) + 2.1 * (w / d) * (1 + 1 / (m + 1))) * ∫ E, σ E) := by
  have hab : F a < F b := by
    have := h.float.acc_nonneg
    have := h.float.float.η0
    have := h.float.float.u0
    have : 0 ≤ 2 * (3.9e-8 / max w (2 * Real.sqrt (Real.log 2) * d) + 2 * η + 5 * u) * (m + 1) := by positivity
    linarith
  obtain ⟨g, g1, g2, g3, g4, g5, -⟩ := voigt_grid h hI mix ha hb m hm
  obtain ⟨σp, g', k1, k2, -, -, -, k6⟩ := C188_limits_grid h.float (by rw [h.same.2]; exact hI.le) mix ha (by linarith) (by linarith) hb m
  have hgg : g' = g := by
    have e := h.grid mix (.lims a b) m
    rw [g1, k2] at e
    simp only [Except.ok.injEq, Option.some.injEq] at e
    exact (List.map_injective_iff.2 (fun x y hxy => by simpa using hxy) e).symm
  subst hgg
  have hsp := sigma_unique k1 h.pseudo
  obtain ⟨n1, n2, n3⟩ := h.voigt.near h.natural h.doppler hI.le
  obtain ⟨hok, hF, -⟩ := h.float.facts
  have hgood := hok.good (er := r.er)
  rw [h.same.1] at hF
  rw [hsp] at k6
  have k7 := near_shares_voigt h.voigt h.natural h.doppler hI.le (g5.imp le_of_lt) k6
  refine ⟨_, g', h.sigma, g1, g2, g3, g4, g5, fun i hi => ?_⟩
  have k8 := k7 i hi
  have hlt : a ≤ b := by
    by_contra hc
    have := hgood.strictMono.monotone (le_of_not_ge hc)
    rw [← hF] at this
    linarith
  have k9 := n3 a b hlt
  have hint : ∫ E in a..b, r.ics * (mkPV r.er w d).pdfR E = (F b - F a) * r.ics := by
    rw [intervalIntegral.integral_const_mul,
      intervalIntegral.integral_eq_sub_of_hasDerivAt (fun x _ => hgood.deriv x) (hgood.cont.intervalIntegrable _ _), hF, mul_comm]
  rw [hint] at k9
  rw [n2] at k8
  simp only
  rw [n1]
  have hm0 : (0 : ℝ) < m + 1 := by positivity
  generalize (∫ E in g'[i]..g'[i + 1], r.ics * voigtDensity r.er (d / Real.sqrt 2) (w / 2) E) = A at *
  generalize (∫ E in a..b, r.ics * voigtDensity r.er (d / Real.sqrt 2) (w / 2) E) = B at *
  have k10 : |(F b - F a) / (m + 1) * r.ics - B / (m + 1)| ≤ 2.1 * (w / d) * r.ics * (1 / (m + 1)) := by
    rw [show (F b - F a) / (m + 1) * r.ics - B / (m + 1) = -((B - (F b - F a) * r.ics) * (1 / (m + 1))) by ring, abs_neg, abs_mul,
      abs_of_pos (show (0 : ℝ) < 1 / (m + 1) by positivity)]
    exact mul_le_mul_of_nonneg_right k9 (by positivity)
  have k11 := abs_sub_le A ((F b - F a) / (m + 1) * r.ics) (B / (m + 1))
  linarith

/-- C191: computed values and computed grid of a Voigt resonance, also as a constituent of a sum (C190). The grid resolves the cross
section although it was made for another one, `τ`, the cross section of the pseudo-Voigt resonance. -/
theorem voigt_resolves (h : FloatVoigt r rp w d fl Fc pc vc F p u η ε) (mix : ℝ → Fl) {σ τ : ℝ → ℝ}
    (hσ : r.HasSigma σ) (hτ : rp.HasSigma τ) (hσ0 : 0 < σ r.er) {a b : ℝ} (ha : 1.001 * ε ≤ F a) (hb : F b ≤ 1 - 1.001 * ε) (m : ℕ)
    (hm : 2 * (3.9e-8 / max w (2 * Real.sqrt (Real.log 2) * d) + 2 * η + 5 * u) * ((m + 1) * ∫ E, τ E) < ∫ E in a..b, τ E) :
    let B := 2 * σ r.er / min (τ a) (τ b) *
        ((∫ E in a..b, τ E) / (m + 1) + 2 * (3.9e-8 / max w (2 * Real.sqrt (Real.log 2) * d) + 2 * η + 5 * u) * ∫ E, τ E)
    let o := Obj.leaf (Leaf.computed (fun E => ((r.semiComputed fl Fc pc vc mix).call E).map (Fl.rounded fl))
        fun a b m => (r.semiComputed fl Fc pc vc mix).probGridF fl (.lims a b) m)
    a < b ∧ Resolves fl a b m (u + η + u * η) B σ o ∧
    ∃ g : List ℝ, (r.semiComputed fl Fc pc vc mix).probGridF fl (.lims a b) m = .ok (some (g.map .fin)) ∧ g.length = m + 2 ∧
      g.head? = some a ∧ g.getLast? = some b ∧ g.Pairwise (· < ·) ∧ RefinedWithin a b g σ B := by
  intro B o
  obtain rfl := sigma_unique hσ h.sigma
  obtain rfl := sigma_unique hτ h.pseudo
  set s := d / Real.sqrt 2
  have hs : 0 < s := div_pos h.doppler (by positivity)
  have hw2 : 0 < w / 2 := half_pos h.natural
  have hv0 := voigt_pos r.er hs hw2
  have hI : 0 < r.ics := pos_of_mul_pos_left hσ0 (hv0 _).le
  obtain ⟨hok, hF, -⟩ := h.float.facts
  have hgood := hok.good (er := r.er)
  have hpk := hok.peaked (er := r.er)
  rw [h.same.1] at hF
  rw [← hF] at hgood
  have hacc := h.float.acc_nonneg
  have hη := h.float.float.η0
  have hu := h.float.float.u0
  have hall : ∫ E, r.ics * (mkPV r.er w d).pdfR E = r.ics := by rw [integral_const_mul, hgood.integral, mul_one]
  have hint : ∫ E in a..b, r.ics * (mkPV r.er w d).pdfR E = r.ics * (F b - F a) := by
    rw [intervalIntegral.integral_const_mul,
      intervalIntegral.integral_eq_sub_of_hasDerivAt (fun x _ => hgood.deriv x) (hgood.cont.intervalIntegrable _ _)]
  set acc := 2 * (3.9e-8 / max w (2 * Real.sqrt (Real.log 2) * d) + 2 * η + 5 * u) with hacc'
  have hacc0 : 0 ≤ acc := by positivity
  have hm' : acc * (m + 1) < F b - F a := by
    rw [hall, hint] at hm
    refine lt_of_mul_lt_mul_left ?_ hI.le
    linarith
  have hFab : F a < F b := by
    have : 0 ≤ acc * (m + 1) := by positivity
    linarith
  have hab : a < b := hgood.strictMono.lt_iff_lt.1 hFab
  obtain ⟨g, g1, g2, g3, g4, g5, g6⟩ := voigt_grid h hI mix ha hb m hm'
  have hord := pairwise_ends g5 g3 g4
  have hpv : Peaked r.er fun E => r.ics * voigtDensity r.er s (w / 2) E := (voigt_peaked r.er hs hw2).const_mul hI
  have hvc : Continuous fun E => r.ics * voigtDensity r.er s (w / 2) E := continuous_const.mul (voigt_continuous r.er hs hw2)
  have hV0 : 0 ≤ (F b - F a) / (m + 1) + acc := add_nonneg (div_nonneg (by linarith) (by positivity)) hacc0
  have hminp : 0 < min ((mkPV r.er w d).pdfR a) ((mkPV r.er w d).pdfR b) := lt_min (hgood.pos a) (hgood.pos b)
  have hB : 2 * (r.ics * voigtDensity r.er s (w / 2) r.er) * (((F b - F a) / (m + 1) + acc) /
      min ((mkPV r.er w d).pdfR a) ((mkPV r.er w d).pdfR b)) = B := by
    change _ = 2 * (r.ics * voigtDensity r.er s (w / 2) r.er) / min (r.ics * (mkPV r.er w d).pdfR a) (r.ics * (mkPV r.er w d).pdfR b) *
      ((∫ E in a..b, r.ics * (mkPV r.er w d).pdfR E) / (m + 1) + acc * ∫ E, r.ics * (mkPV r.er w d).pdfR E)
    rw [hall, hint, ← mul_min_of_nonneg _ _ hI.le]
    field_simp
  have href : RefinedWithin a b g (fun E => r.ics * voigtDensity r.er s (w / 2) E) B := by
    rw [← hB]
    refine refined_lengths (c := r.er) hpv (fun x => (mul_pos hI (hv0 x)).le) hvc (div_nonneg hV0 hminp.le) g3 g4 hord fun i hi => ?_
    exact hgood.length_le hpk (hord.2 _ (List.getElem_mem _)).1 (List.pairwise_iff_getElem.1 g5 i (i + 1) (by omega) hi (by omega)).le
      (hord.2 _ (List.getElem_mem _)).2 (g6 i hi)
  refine ⟨hab, ⟨fun E hE => ?_, fun E _ => (mul_pos hI (hv0 E)).le, hvc.continuousOn, g, ?_, List.mem_of_head? g3, List.mem_of_getLast? g4,
    hord.2, href⟩, g, g1, g2, g3, g4, g5, href⟩
  · refine ⟨fl (r.ics * vc E), by simp [o, Obj.callR, Leaf.computed, Reso.call, Reso.semiComputed, PV.semiComputed, Bind.bind, Except.bind,
      Except.map, Fl.smul, Fl.rounded], ?_⟩
    have e1 : F a ≤ F E := hgood.strictMono.monotone hE.1
    have e2 : F E ≤ F b := hgood.strictMono.monotone hE.2
    have hε := h.float.ε0
    have near := h.float.near (x := E) (by linarith) (by linarith)
    rw [h.same.1] at near
    have n1 := h.value E _ (h.density hI E) near
    have n2 : |r.ics * vc E - r.ics * voigtDensity r.er s (w / 2) E| ≤ η * (r.ics * voigtDensity r.er s (w / 2) E) := by
      rw [← mul_sub, abs_mul, abs_of_pos hI]
      have := mul_le_mul_of_nonneg_left n1 hI.le
      linarith
    have := round_step hu h.float.float.rounding (mul_pos hI (hv0 E)).le n2
    refine this.trans (le_of_eq ?_)
    ring
  · have h2 : ¬ ((m : ℤ) + 2 < 2) := by omega
    have h3 : ((m : ℤ) + 2 - 2).toNat = m := by omega
    simp only [o, Obj.probGridR, Leaf.computed, h2, if_false, h3, g1, Bind.bind, Except.bind]

/-- C191 as a constituent of a sum (C190): computed values with a relative error of three roundings' order, and a grid that resolves the
cross section although it was made for that of the pseudo-Voigt resonance, `τ`. -/
theorem C191_resolves (h : FloatVoigt r rp w d fl Fc pc vc F p u η ε) (mix : ℝ → Fl) {σ τ : ℝ → ℝ}
    (hσ : r.HasSigma σ) (hτ : rp.HasSigma τ) (hσ0 : 0 < σ r.er) {a b : ℝ} (ha : 1.001 * ε ≤ F a) (hb : F b ≤ 1 - 1.001 * ε) (m : ℕ)
    (hm : 2 * (3.9e-8 / max w (2 * Real.sqrt (Real.log 2) * d) + 2 * η + 5 * u) * ((m + 1) * ∫ E, τ E) < ∫ E in a..b, τ E) :
    Resolves fl a b m (u + η + u * η)
      (2 * σ r.er / min (τ a) (τ b) *
        ((∫ E in a..b, τ E) / (m + 1) + 2 * (3.9e-8 / max w (2 * Real.sqrt (Real.log 2) * d) + 2 * η + 5 * u) * ∫ E, τ E)) σ
      (.leaf (Leaf.computed (fun E => ((r.semiComputed fl Fc pc vc mix).call E).map (Fl.rounded fl))
        fun a b m => (r.semiComputed fl Fc pc vc mix).probGridF fl (.lims a b) m)) :=
  (voigt_resolves h mix hσ hτ hσ0 ha hb m hm).2.1

/-- C191, integrals: both computed Darboux sums of a Voigt resonance over its own grid. -/
theorem C191_integral (h : FloatVoigt r rp w d fl Fc pc vc F p u η ε) (hmono : Monotone fl) (mix : ℝ → Fl) {σ τ : ℝ → ℝ}
    (hσ : r.HasSigma σ) (hτ : rp.HasSigma τ) (hσ0 : 0 < σ r.er) {a b : ℝ} (ha : 1.001 * ε ≤ F a) (hb : F b ≤ 1 - 1.001 * ε) (m : ℕ)
    (hm : 2 * (3.9e-8 / max w (2 * Real.sqrt (Real.log 2) * d) + 2 * η + 5 * u) * ((m + 1) * ∫ E, τ E) < ∫ E in a..b, τ E)
    {order : ℕ → SumTree} (ho : (order (m + 1)).Covers (m + 1)) :
    let γ := (1 + (u + η + u * η)) * (1 + u) ^ ((order (m + 1)).depth + 2) - 1
    let G := 2 * σ r.er / min (τ a) (τ b) *
      ((∫ E in a..b, τ E) / (m + 1) + 2 * (3.9e-8 / max w (2 * Real.sqrt (Real.log 2) * d) + 2 * η + 5 * u) * ∫ E, τ E)
    ∃ L D, (r.semiComputed fl Fc pc vc mix).gridIntegralF fl order (.lims a b) m = .ok (L, D) ∧
      |L - ∫ E in a..b, σ E| ≤ G + γ * ((∫ E in a..b, σ E) + G) ∧
      |L + D - ∫ E in a..b, σ E| ≤ G + (γ + 2 * u * (1 + γ)) * ((∫ E in a..b, σ E) + G) := by
  intro γ G
  have hu := h.float.float.u0
  have hη := h.float.float.η0
  obtain ⟨hab, hR, g, g1, g2, g3, g4, g5, g6⟩ := voigt_resolves h mix hσ hτ hσ0 ha hb m hm
  have hl : g.length - 1 = m + 1 := by omega
  obtain ⟨L, D, k1, k2⟩ := resolved_integral hu (by positivity) h.float.float.rounding hmono hab hR g5 (List.mem_of_head? g3)
    (List.mem_of_getLast? g4) (pairwise_ends g5 g3 g4).2 g6 (order := order) (by rw [hl]; exact ho)
  rw [hl] at k2
  refine ⟨L, D, ?_, k2⟩
  have e : (fun E => (valueR fl (Obj.leaf (Leaf.computed (fun E => ((r.semiComputed fl Fc pc vc mix).call E).map (Fl.rounded fl))
      fun a b m => (r.semiComputed fl Fc pc vc mix).probGridF fl (.lims a b) m)) E).map Fl.fin) =
      fun E => ((r.semiComputed fl Fc pc vc mix).call E).map (Fl.rounded fl) := by
    funext E
    simp [valueR, Obj.callR, Leaf.computed, Reso.call, Reso.semiComputed, PV.semiComputed, Bind.bind, Except.bind, Except.map, Fl.smul, Fl.rounded]
  rw [e] at k1
  simp only [Reso.gridIntegralF, g1, Bind.bind, Except.bind]
  exact k1

/-- The level of 20 meV at room temperature in double precision with correctly rounded functions: 41 points between the limits with 5 % of
the pseudo-Voigt cross section outside on either side; 2.1 times the ratio of the widths is about one percent. -/
theorem exThin_voigt : ∃ (r rp : Reso) (d : ℝ) (F p v : ℝ → ℝ) (a b : ℝ) (τ : ℝ → ℝ), FloatVoigt r rp 2e-8 d KN.rn (fun x => KN.rn (F x))
      (fun x => KN.rn (p x)) (fun x => KN.rn (v x)) F p (1 / 2 ^ 53) (1 / 2 ^ 53) 0.02 ∧ 0 < r.ics ∧ F a = 0.05 ∧ F b = 0.95 ∧ rp.HasSigma τ ∧
    2.1 * (2e-8 / d) ≤ 0.0105 ∧
    2 * (3.9e-8 / max 2e-8 (2 * Real.sqrt (Real.log 2) * d) + 2 * (1 / 2 ^ 53) + 5 * (1 / 2 ^ 53)) * ((39 : ℕ) + 1) < F b - F a ∧
    2 * (3.9e-8 / max 2e-8 (2 * Real.sqrt (Real.log 2) * d) + 2 * (1 / 2 ^ 53) + 5 * (1 / 2 ^ 53)) * (((39 : ℕ) + 1) * ∫ E, τ E) < ∫ E in a..b, τ E := by
  obtain ⟨rp, d, F, p, a, b, h, hI, -, ha, hb, hd, hmk, rfl, her⟩ := exThin_pseudoVoigt
  have h11 : (11 : ℝ) ≠ 0 := by norm_num
  set d := dopplerWidth exConst 11 293 2 with hdd
  have hd0 : 0 < d := by linarith
  have hs0 : 0.5 ≤ Real.sqrt (Real.log 2) := by
    rw [Real.le_sqrt (by norm_num) (by linarith [Real.log_two_gt_d9])]
    norm_num
    linarith [Real.log_two_gt_d9]
  have hacc : 3.9e-8 / max 2e-8 (2 * Real.sqrt (Real.log 2) * d) ≤ 0.00976 := by
    have : 4e-6 ≤ 2 * Real.sqrt (Real.log 2) * d := by nlinarith
    have h4 : 4e-6 ≤ max 2e-8 (2 * Real.sqrt (Real.log 2) * d) := this.trans (le_max_right _ _)
    rw [div_le_iff₀ (by linarith)]
    linarith
  have hm : 2 * (3.9e-8 / max 2e-8 (2 * Real.sqrt (Real.log 2) * d) + 2 * (1 / 2 ^ 53) + 5 * (1 / 2 ^ 53)) * ((39 : ℕ) + 1) < F b - F a := by
    rw [ha, hb]
    push_cast
    norm_num at *
    linarith
  have hV : mkVoigt exConst exGround exThin 11 293 none = .ok { rp with dist := (mkPV rp.er 2e-8 d).toSemiDist } := by
    simp only [mkVoigt, hmk, exThin_width, getDopplerWidth_ok exConst h11, Bind.bind, Except.bind, her, ← hdd]
  obtain ⟨hok, hF, hs, -, -, -⟩ := h.facts
  have hgood := hok.good (er := rp.er)
  have hall : ∫ E, rp.ics * (mkPV rp.er 2e-8 d).pdfR E = rp.ics := by rw [integral_const_mul, hgood.integral, mul_one]
  have hint : ∫ E in a..b, rp.ics * (mkPV rp.er 2e-8 d).pdfR E = rp.ics * (F b - F a) := by
    rw [intervalIntegral.integral_const_mul,
      intervalIntegral.integral_eq_sub_of_hasDerivAt (fun x _ => hgood.deriv x) (hgood.cont.intervalIntegrable _ _), hF]
  have hshape : ∃ k init inter amu T final, mkVoigt k init inter amu T final = .ok { rp with dist := (mkPV rp.er 2e-8 d).toSemiDist } ∧
      mkPseudoVoigt k init inter amu T final = .ok rp ∧ 0 < amu ∧ 0 ≤ T ∧ init.exc < inter.exc ∧ inter.width = .ok 2e-8 ∧
      getDopplerWidth k amu T rp.er = .ok d :=
    ⟨exConst, exGround, exThin, 11, 293, none, hV, hmk, by norm_num, by norm_num, by norm_num [exGround, exThin, groundState, state],
      exThin_width, by rw [getDopplerWidth_ok exConst h11, her]⟩
  obtain ⟨-, hdist, hpar⟩ := h.shape.inv
  have hden : ∀ x, ({ rp with dist := (mkPV rp.er 2e-8 d).toSemiDist } : Reso).dist.pdf rp.params x =
      .ok (voigtProfile (x - (mkPV rp.er 2e-8 d).er) (mkPV rp.er 2e-8 d).sigma (mkPV rp.er 2e-8 d).gamma) := by
    intro x
    simp [PV.toSemiDist, hpar]
  have hVo : IsVoigtOf { rp with dist := (mkPV rp.er 2e-8 d).toSemiDist } 2e-8 d := by
    obtain ⟨k, init, inter, amu, T, final, h1, -, h3, h4, h5, h6, h7⟩ := hshape
    exact ⟨k, init, inter, amu, T, final, h1, h3, h4, h5, h6, h7, by norm_num, Or.inl (by norm_num)⟩
  have hpos : ∀ x y, ({ rp with dist := (mkPV rp.er 2e-8 d).toSemiDist } : Reso).dist.pdf rp.params x = .ok (.fin y) →
      y = voigtDensity rp.er (d / Real.sqrt 2) (2e-8 / 2) x := by
    intro x y hy
    have h1 := hVo.sigma (by norm_num) hd0 x
    rw [hden] at hy
    simp only [Reso.call, PV.toSemiDist, hpar, if_true, Bind.bind, Except.bind, Except.ok.injEq] at h1 hy
    rw [hy] at h1
    simp only [Fl.smul, Fl.fin.injEq] at h1
    exact mul_left_cancel₀ hI.ne' h1
  refine ⟨_, rp, d, F, p, voigtDensity rp.er (d / Real.sqrt 2) (2e-8 / 2), a, b, _, ⟨hshape, h, by norm_num, hd0, fun x y hy _ => ?_⟩, hI, ha, hb,
    hs, ?_, hm, ?_⟩
  · obtain rfl := hpos x y hy
    have hv := voigt_pos rp.er (show 0 < d / Real.sqrt 2 by positivity) (show (0 : ℝ) < 2e-8 / 2 by norm_num) x
    have := KN.rn_rounding (voigtDensity rp.er (d / Real.sqrt 2) (2e-8 / 2) x)
    rwa [abs_of_pos hv] at this
  · rw [← mul_div_assoc, div_le_iff₀ hd0]
    linarith
  · rw [hall, hint]
    have := mul_lt_mul_of_pos_left hm hI
    linarith

/-- the hypotheses of the theorems above are met -/
example : ∃ (r : Reso) (Fc pc vc σ : ℝ → ℝ) (a b : ℝ) (g : List ℝ) (L D : ℝ), r.HasSigma σ ∧ 0 < σ r.er ∧
    (r.semiComputed KN.rn Fc pc vc fun _ => .nan).probGridF KN.rn (.lims a b) 39 = .ok (some (g.map .fin)) ∧ g.Pairwise (· < ·) ∧ g.length = 41 ∧
    (r.semiComputed KN.rn Fc pc vc fun _ => .nan).gridIntegralF KN.rn (fun n => leftSum (n - 1)) (.lims a b) 39 = .ok (L, D) := by
  obtain ⟨r, rp, d, F, p, v, a, b, τ, h, hI, ha, hb, hτ, -, hm, hm'⟩ := exThin_voigt
  obtain ⟨σ, g, hσ, g1, g2, -, -, g5, -⟩ := C191_limits_grid h hI (fun _ => .nan) (by rw [ha]; norm_num) (by rw [hb]; norm_num) 39 hm
  have hσ0 : 0 < σ r.er := by
    obtain rfl := sigma_unique hσ h.sigma
    exact mul_pos hI (voigt_pos _ (div_pos h.doppler (by positivity)) (half_pos h.natural) _)
  obtain ⟨L, D, k1, -⟩ := C191_integral h KN.rn_monotone (fun _ => .nan) hσ hτ hσ0 (by rw [ha]; norm_num) (by rw [hb]; norm_num) 39 hm'
    (order := fun n => leftSum (n - 1)) (by rw [SumTree.Covers, (leftSum_covers _).1])
  exact ⟨r, _, _, _, σ, a, b, g, L, D, hσ, hσ0, g1, g5, g2, k1⟩

/-- coverage 0.95 of the same level: at least 91 % and at most 99 % of the cross section are inside -/
example : ∃ (r : Reso) (Fc pc vc σ : ℝ → ℝ) (lo hi : ℝ) (warn : Option Fl), r.HasSigma σ ∧
    (r.semiComputed KN.rn Fc pc vc fun _ => .nan).coverageIntervalF KN.rn 0.95 = .ok ⟨.fin lo, .fin hi, warn, False⟩ ∧
    0.91 * (∫ E, σ E) ≤ ∫ E in lo..hi, σ E ∧ ∫ E in lo..hi, σ E ≤ 0.99 * ∫ E, σ E := by
  obtain ⟨r, rp, d, F, p, v, a, b, τ, h, hI, ha, hb, hτ, h21, hm, -⟩ := exThin_voigt
  obtain ⟨σ, lo, hi, warn, hσ, k1, -, k3⟩ := C191_coverage_interval h hI.le (fun _ => .nan) (c := 0.95) (by norm_num) (by norm_num)
  have hall : 0 ≤ ∫ E, σ E := by
    obtain rfl := sigma_unique hσ h.sigma
    rw [(h.voigt.near h.natural h.doppler hI.le).1]
    exact hI.le
  have h1 : 7.8e-8 / max 2e-8 (2 * Real.sqrt (Real.log 2) * d) + 2 * (1 / 2 ^ 53) + 4 * (1 / 2 ^ 53) + 2.1 * (2e-8 / d) ≤ 0.04 := by
    rw [ha, hb] at hm
    have e : 7.8e-8 / max 2e-8 (2 * Real.sqrt (Real.log 2) * d) = 2 * (3.9e-8 / max 2e-8 (2 * Real.sqrt (Real.log 2) * d)) := by ring
    rw [e]
    generalize 3.9e-8 / max 2e-8 (2 * Real.sqrt (Real.log 2) * d) = A at *
    push_cast at hm
    norm_num at *
    linarith
  have h2 := abs_le.1 (k3.trans (mul_le_mul_of_nonneg_right h1 hall))
  exact ⟨r, _, _, _, σ, lo, hi, warn, hσ, k1, by linarith, by linarith⟩

end Ries
