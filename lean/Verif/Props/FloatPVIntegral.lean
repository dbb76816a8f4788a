import Verif.Model.RoundedPVIntegral
import Verif.Lemmas.RoundedIntegral
import Verif.Props.FloatPVGrid
import Verif.Props.FloatIntegral

/-! # C188, C189: increasing grids and integrals of pseudo-Voigt resonances in floating point -/

open MeasureTheory Set

namespace Ries

variable {fl Fc pc F p : ℝ → ℝ} {u η ε : ℝ}

/-- shares that exceed their error belong to increasing points -/
theorem NearShares.increasing {σ : ℝ → ℝ} (hσ : ∀ x, 0 ≤ σ x) {g : List ℝ} {v δ : ℝ} (h : NearShares σ g v δ) (hv : δ < v) :
    g.Pairwise (· < ·) := by
  rw [← List.isChain_iff_pairwise, List.isChain_iff_getElem]
  intro i hi
  by_contra hlt
  push Not at hlt
  have h1 := abs_le.1 (h i hi)
  have h2 : ∫ E in g[i]..g[i + 1], σ E ≤ 0 := by
    rw [intervalIntegral.integral_symm, neg_nonpos]
    exact intervalIntegral.integral_nonneg hlt fun x _ => hσ x
  linarith

theorem pairwise_ends {g : List ℝ} {a b : ℝ} (hg : g.Pairwise (· < ·)) (ha : g.head? = some a) (hb : g.getLast? = some b) :
    OrderedInside a b g := by
  refine ⟨hg.imp le_of_lt, fun x hx => ⟨?_, ?_⟩⟩
  · cases g with
    | nil => simp at ha
    | cons y t =>
        simp only [List.head?_cons, Option.some.injEq] at ha
        subst ha
        rcases List.mem_cons.1 hx with rfl | h
        · exact le_rfl
        · exact (List.rel_of_pairwise_cons hg h).le
  · obtain ⟨t, rfl⟩ := List.getLast?_eq_some_iff.1 hb
    rcases List.mem_append.1 hx with h | h
    · exact ((List.pairwise_append.1 hg).2.2 x h b (by simp)).le
    · exact (List.mem_singleton.1 h).le

theorem FloatReso.acc_nonneg {r : Reso} {w d : ℝ} (h : FloatReso r w d fl Fc pc F p u η ε) :
    0 ≤ 3.9e-8 / max w (2 * Real.sqrt (Real.log 2) * d) :=
  div_nonneg (by norm_num) (h.facts.1.w0.trans (le_max_left _ _))

/-- everything about a grid between limits whose shares exceed the accuracy of the search -/
theorem increasing_grid {r : Reso} {w d : ℝ} (h : FloatReso r w d fl Fc pc F p u η ε) (hI : 0 < r.ics) (mix : ℝ → Fl) {a b : ℝ}
    (ha : 1.001 * ε ≤ F a) (hb : F b ≤ 1 - 1.001 * ε) (m : ℕ)
    (hm : 2 * (3.9e-8 / max w (2 * Real.sqrt (Real.log 2) * d) + 2 * η + 5 * u) * (m + 1) < F b - F a) :
    ∃ g : List ℝ, (r.computed fl Fc pc mix).probGridF fl (.lims a b) m = .ok (some (g.map .fin)) ∧ g.length = m + 2 ∧
      g.head? = some a ∧ g.getLast? = some b ∧ g.Pairwise (· < ·) ∧ ∀ i, (hi : i + 1 < g.length) →
        F g[i + 1] - F g[i] ≤ (F b - F a) / (m + 1) + 2 * (3.9e-8 / max w (2 * Real.sqrt (Real.log 2) * d) + 2 * η + 5 * u) := by
  have hacc := h.acc_nonneg
  have hη := h.float.η0
  have hu := h.float.u0
  have hm0 : (0 : ℝ) < m + 1 := by positivity
  set δ := 2 * (3.9e-8 / max w (2 * Real.sqrt (Real.log 2) * d) + 2 * η + 5 * u) with hδ
  have hδ0 : 0 ≤ δ := by positivity
  have hab : F a ≤ F b := by
    have : 0 ≤ δ * (m + 1) := by positivity
    linarith
  obtain ⟨σ, g, hσ, g1, g2, g3, g4, g5⟩ := C188_limits_grid h hI.le mix ha (hab.trans hb) (ha.trans hab) hb m
  rw [← hδ] at g5
  obtain ⟨hok, hF, hs, -, -, -⟩ := h.facts
  have hsig := sigma_unique hσ hs
  have hgood := hok.good (er := r.er)
  rw [← hF] at hgood
  have hall : ∫ E, σ E = r.ics := by rw [hsig, integral_const_mul, hgood.integral, mul_one]
  have hint : ∀ s t, ∫ E in s..t, σ E = r.ics * (F t - F s) := by
    intro s t
    rw [hsig, intervalIntegral.integral_const_mul,
      intervalIntegral.integral_eq_sub_of_hasDerivAt (fun x _ => hgood.deriv x) (hgood.cont.intervalIntegrable _ _)]
  rw [hall] at g5
  refine ⟨g, g1, g2, g3, g4, g5.increasing (fun x => ?_) ?_, fun i hi => ?_⟩
  · rw [hsig]
    exact (mul_pos hI (hgood.pos x)).le
  · exact mul_lt_mul_of_pos_right ((lt_div_iff₀ hm0).2 hm) hI
  · have := (abs_le.1 (g5 i hi)).2
    rw [hint] at this
    refine le_of_mul_le_mul_left ?_ hI
    linarith

/-- C188: as soon as the probability of an interval exceeds the accuracy of the search, the points increase strictly. -/
theorem C188_increasing {r : Reso} {w d : ℝ} (h : FloatReso r w d fl Fc pc F p u η ε) (hI : 0 < r.ics) (mix : ℝ → Fl) {a b : ℝ}
    (ha : 1.001 * ε ≤ F a) (hb : F b ≤ 1 - 1.001 * ε) (m : ℕ)
    (hm : 2 * (3.9e-8 / max w (2 * Real.sqrt (Real.log 2) * d) + 2 * η + 5 * u) * (m + 1) < F b - F a) :
    ∃ g : List ℝ, (r.computed fl Fc pc mix).probGridF fl (.lims a b) m = .ok (some (g.map .fin)) ∧ g.length = m + 2 ∧
      g.head? = some a ∧ g.getLast? = some b ∧ g.Pairwise (· < ·) := by
  obtain ⟨g, g1, g2, g3, g4, g5, -⟩ := increasing_grid h hI mix ha hb m hm
  exact ⟨g, g1, g2, g3, g4, g5⟩

/-- the same for a coverage -/
theorem C188_increasing_coverage {r : Reso} {w d : ℝ} (h : FloatReso r w d fl Fc pc F p u η ε) (hI : 0 < r.ics) (mix : ℝ → Fl) {c : ℝ}
    (hc : 1.001 * ε ≤ (1 - c) / 2) (m : ℕ)
    (hm : 2 * (3.9e-8 / max w (2 * Real.sqrt (Real.log 2) * d) + η + 8 * u) * (m + 1) < c) :
    ∃ g : List ℝ, (r.computed fl Fc pc mix).probGridF fl (.cov c) m = .ok (some (g.map .fin)) ∧ g.length = m + 2 ∧ g.Pairwise (· < ·) := by
  have hacc := h.acc_nonneg
  have hη := h.float.η0
  have hu := h.float.u0
  have hm0 : (0 : ℝ) < m + 1 := by positivity
  set δ := 2 * (3.9e-8 / max w (2 * Real.sqrt (Real.log 2) * d) + η + 8 * u) with hδ
  have hc0 : 0 ≤ c := (by positivity : 0 ≤ δ * (m + 1)).trans hm.le
  obtain ⟨σ, g, hσ, g1, g2, -, g5⟩ := C188_coverage_grid h hI.le mix hc0 hc m
  rw [← hδ] at g5
  obtain ⟨hok, hF, hs, -, -, -⟩ := h.facts
  have hsig := sigma_unique hσ hs
  have hgood := hok.good (er := r.er)
  have hall : ∫ E, σ E = r.ics := by rw [hsig, integral_const_mul, hgood.integral, mul_one]
  rw [hall] at g5
  refine ⟨g, g1, g2, g5.increasing (fun x => ?_) ?_⟩
  · rw [hsig]
    exact (mul_pos hI (hgood.pos x)).le
  · exact mul_lt_mul_of_pos_right ((lt_div_iff₀ hm0).2 hm) hI

theorem FloatReso.near {r : Reso} {w d : ℝ} (h : FloatReso r w d fl Fc pc F p u η ε) {x : ℝ} (h1 : ε / 2 ≤ F x) (h2 : F x ≤ 1 - ε / 2) :
    |x - r.er| ≤ (2 * Real.sqrt (Real.log 2) * d + w) / ε := by
  obtain ⟨hok, hF, -⟩ := h.facts
  rw [hF] at h1 h2
  have hgood := hok.good (er := r.er)
  rcases le_total x r.er with hx | hx
  · rw [abs_of_nonpos (by linarith)]
    have := (hok.near h.ε0 h.ε1 hx h1).1
    linarith
  · rw [abs_of_nonneg (by linarith)]
    have hr := hgood.reflect hok.peaked x
    have := (hok.near (er := r.er) (x := 2 * r.er - x) h.ε0 h.ε1 (by linarith) (by linarith)).1
    linarith

/-- values and grid of a pseudo-Voigt resonance with a computed distribution -/
theorem pseudoVoigt_prepared {r : Reso} {w d : ℝ} (h : FloatReso r w d fl Fc pc F p u η ε) (mix : ℝ → Fl) {σ : ℝ → ℝ}
    (hσ : r.HasSigma σ) (hσ0 : 0 < σ r.er) {a b : ℝ} (ha : 1.001 * ε ≤ F a) (hb : F b ≤ 1 - 1.001 * ε) (m : ℕ)
    (hm : 2 * (3.9e-8 / max w (2 * Real.sqrt (Real.log 2) * d) + 2 * η + 5 * u) * ((m + 1) * ∫ E, σ E) < ∫ E in a..b, σ E) :
    Prepared (fun E => ((r.computed fl Fc pc mix).call E).map (Fl.rounded fl)) ((r.computed fl Fc pc mix).probGridF fl (.lims a b) m) σ r.er a b m
      (u + η + u * η) (2 * (3.9e-8 / max w (2 * Real.sqrt (Real.log 2) * d) + 2 * η + 5 * u)) := by
  obtain ⟨hok, hF, hs, -, -, -⟩ := h.facts
  have hpd : p = (mkPV r.er w d).pdfR := by
    obtain ⟨-, hd, hp⟩ := h.shape.inv
    funext x
    have := h.pdf x
    rw [hd, hp] at this
    simpa [PV.toDist, PV.pdf, hok.valid, eq_comm] using this
  have hsig := sigma_unique hσ hs
  rw [← hpd] at hsig
  have hgood := hok.good (er := r.er)
  have hpk := hok.peaked (er := r.er)
  rw [← hpd] at hpk
  rw [← hF, ← hpd] at hgood
  have hI : 0 < r.ics := by
    rw [hsig] at hσ0
    exact pos_of_mul_pos_left hσ0 (hgood.pos _).le
  have hall : ∫ E, σ E = r.ics := by rw [hsig, integral_const_mul, hgood.integral, mul_one]
  have hint : ∫ E in a..b, σ E = r.ics * (F b - F a) := by
    rw [hsig, intervalIntegral.integral_const_mul,
      intervalIntegral.integral_eq_sub_of_hasDerivAt (fun x _ => hgood.deriv x) (hgood.cont.intervalIntegrable _ _)]
  obtain ⟨g, g1, g2, g3, g4, g5, g6⟩ := increasing_grid h hI mix ha hb m (by
    rw [hall, hint] at hm
    refine lt_of_mul_lt_mul_left ?_ hI.le
    linarith)
  have hu := h.float.u0
  have hη := h.float.η0
  refine ⟨F, p, r.ics, g, hgood, hpk, hI, hsig, fun E hE => ?_, g1, g2, g3, g4, pairwise_ends g5 g3 g4, g6⟩
  refine ⟨fl (r.ics * pc E), by simp [Reso.call, Reso.computed, PV.computed, Bind.bind, Except.bind, Fl.smul, Fl.rounded, Except.map], ?_⟩
  have e1 : F a ≤ F E := hgood.strictMono.monotone hE.1
  have e2 : F E ≤ F b := hgood.strictMono.monotone hE.2
  have hε := h.ε0
  have n1 := h.float.pdf_near E (h.near (by linarith) (by linarith))
  have n2 := h.float.rounding (r.ics * pc E)
  have hp0 := hgood.pos E
  have n3 : |r.ics * pc E| ≤ r.ics * ((1 + η) * p E) := by
    rw [abs_mul, abs_of_pos hI]
    refine mul_le_mul_of_nonneg_left ?_ hI.le
    have := abs_le.1 n1
    rw [abs_le]
    constructor <;> nlinarith
  rw [hsig]
  simp only
  rw [abs_of_pos (mul_pos hI hp0)]
  have n4 : |r.ics * pc E - r.ics * p E| ≤ η * (r.ics * p E) := by
    rw [← mul_sub, abs_mul, abs_of_pos hI]
    have := mul_le_mul_of_nonneg_left n1 hI.le
    linarith
  have n5 := abs_sub_le (fl (r.ics * pc E)) (r.ics * pc E) (r.ics * p E)
  have n6 := mul_le_mul_of_nonneg_left n3 hu
  linarith

/-- C189 for a pseudo-Voigt resonance with a computed distribution: the grid is found by the search for quantiles, the cross section is the
rounded product of the computed density and the energy-integrated cross section. -/
theorem C189_pseudo_voigt {r : Reso} {w d : ℝ} (h : FloatReso r w d fl Fc pc F p u η ε) (hmono : Monotone fl) (mix : ℝ → Fl) {σ : ℝ → ℝ}
    (hσ : r.HasSigma σ) (hσ0 : 0 < σ r.er) {a b : ℝ} (ha : 1.001 * ε ≤ F a) (hb : F b ≤ 1 - 1.001 * ε) (m : ℕ)
    (hm : 2 * (3.9e-8 / max w (2 * Real.sqrt (Real.log 2) * d) + 2 * η + 5 * u) * ((m + 1) * ∫ E, σ E) < ∫ E in a..b, σ E)
    {order : ℕ → SumTree} (ho : (order (m + 1)).Covers (m + 1)) :
    let γ := (1 + (u + η + u * η)) * (1 + u) ^ ((order (m + 1)).depth + 2) - 1
    let G := 2 * σ r.er / min (σ a) (σ b) *
      ((∫ E in a..b, σ E) / (m + 1) + 2 * (3.9e-8 / max w (2 * Real.sqrt (Real.log 2) * d) + 2 * η + 5 * u) * ∫ E, σ E)
    ∃ L D, (r.computed fl Fc pc mix).gridIntegralF fl order (.lims a b) m = .ok (L, D) ∧
      |L - ∫ E in a..b, σ E| ≤ G + γ * ((∫ E in a..b, σ E) + G) ∧
      |L + D - ∫ E in a..b, σ E| ≤ G + (γ + 2 * u * (1 + γ)) * ((∫ E in a..b, σ E) + G) := by
  intro γ G
  have hu := h.float.u0
  have hη := h.float.η0
  obtain ⟨g, L, D, g1, k1, k2⟩ := (pseudoVoigt_prepared h mix hσ hσ0 ha hb m hm).integral hu (by positivity) h.float.rounding hmono ho
  refine ⟨L, D, ?_, k2⟩
  simp only [Reso.gridIntegralF, g1, Bind.bind, Except.bind]
  exact k1

/-- The level of 20 meV at room temperature in double precision with correctly rounded functions: 41 points between the limits with 5 % of
the cross section outside on either side. -/
example : ∃ (r : Reso) (d : ℝ) (F p : ℝ → ℝ) (a b : ℝ) (g : List ℝ) (σ : ℝ → ℝ) (L D : ℝ), r.HasSigma σ ∧
    FloatReso r 2e-8 d KN.rn (fun x => KN.rn (F x)) (fun x => KN.rn (p x)) F p (1 / 2 ^ 53) (1 / 2 ^ 53) 0.02 ∧
    (r.computed KN.rn (fun x => KN.rn (F x)) (fun x => KN.rn (p x)) fun _ => .nan).probGridF KN.rn (.lims a b) 39 = .ok (some (g.map .fin)) ∧
    g.Pairwise (· < ·) ∧ (r.computed KN.rn (fun x => KN.rn (F x)) (fun x => KN.rn (p x)) fun _ => .nan).gridIntegralF KN.rn
      (fun n => leftSum (n - 1)) (.lims a b) 39 = .ok (L, D) ∧ 0 < ∫ E in a..b, σ E := by
  obtain ⟨r, d, F, p, a, b, h, hI, -, ha, hb, hd⟩ := exThin_float
  obtain ⟨hok, hF, hs, -, -, -⟩ := h.facts
  have hs0 : 0.5 ≤ Real.sqrt (Real.log 2) := by
    rw [Real.le_sqrt (by norm_num) (by linarith [Real.log_two_gt_d9])]
    norm_num
    linarith [Real.log_two_gt_d9]
  have hacc : 3.9e-8 / max 2e-8 (2 * Real.sqrt (Real.log 2) * d) ≤ 0.00976 := by
    have : 4e-6 ≤ 2 * Real.sqrt (Real.log 2) * d := by nlinarith
    have h4 : 4e-6 ≤ max 2e-8 (2 * Real.sqrt (Real.log 2) * d) := this.trans (le_max_right _ _)
    rw [div_le_iff₀ (by linarith)]
    linarith
  have hm : 2 * (3.9e-8 / max 2e-8 (2 * Real.sqrt (Real.log 2) * d) + 2 * (1 / 2 ^ 53) + 5 * (1 / 2 ^ 53)) * ((39 : ℕ) + 1) < F b - F a := by
    rw [ha, hb]
    push_cast
    norm_num at *
    linarith
  obtain ⟨g, g1, -, -, -, g5⟩ := C188_increasing h hI (fun _ => .nan) (by rw [ha]; norm_num) (by rw [hb]; norm_num) 39 hm
  have hgood := hok.good (er := r.er)
  have hall : ∫ E, r.ics * (mkPV r.er 2e-8 d).pdfR E = r.ics := by rw [integral_const_mul, hgood.integral, mul_one]
  have hint : ∫ E in a..b, r.ics * (mkPV r.er 2e-8 d).pdfR E = r.ics * (F b - F a) := by
    rw [intervalIntegral.integral_const_mul,
      intervalIntegral.integral_eq_sub_of_hasDerivAt (fun x _ => hgood.deriv x) (hgood.cont.intervalIntegrable _ _), hF]
  obtain ⟨L, D, k1, -, -⟩ := C189_pseudo_voigt h KN.rn_monotone (fun _ => .nan) hs (mul_pos hI (hgood.pos _)) (by rw [ha]; norm_num)
    (by rw [hb]; norm_num) 39 (by
      rw [hall, hint]
      have := mul_lt_mul_of_pos_left hm hI
      linarith) (order := fun n => leftSum (n - 1)) (by rw [SumTree.Covers, (leftSum_covers _).1])
  refine ⟨r, d, F, p, a, b, g, _, L, D, hs, h, g1, g5, k1, ?_⟩
  rw [hint, ha, hb]
  exact mul_pos hI (by norm_num)

end Ries
