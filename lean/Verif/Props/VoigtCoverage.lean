import Verif.Lemmas.VoigtCdf
import Verif.Props.Coverage
import Verif.Props.VoigtLimits

/-!
# C83 and C156: coverage intervals and equal-probability grids of Voigt resonances with a finite width
-/

open MeasureTheory Set

namespace Ries

/-- the pseudo-Voigt resonance of the same states -/
theorem IsVoigtOf.pseudo {r : Reso} {w d : ℝ} (h : IsVoigtOf r w d) :
    ∃ p : Reso, IsPseudoVoigtOf p w d ∧ p.er = r.er ∧ p.ics = r.ics ∧ (∀ c, p.coverageInterval c = r.coverageInterval c) ∧
      (∀ q n, p.probGrid q n = r.probGrid q n) ∧ p.HasSigma fun E => r.ics * (mkPV r.er w d).pdfR E := by
  obtain ⟨hok, hd, hp⟩ := h.inv
  obtain ⟨k, init, inter, amu, T, final, hr, ha, hT, hE, hw, hdw, hw0, hne⟩ := h
  have hP : IsPseudoVoigtOf { r with dist := (mkPV r.er w d).toDist } w d := by
    refine ⟨k, init, inter, amu, T, final, ?_, ha, hT, hE, hw, hdw, hw0, hne⟩
    obtain ⟨r0, dd, ps, hr0, hdd, rfl⟩ := build_inv (s := .voigt amu T) hr
    have h1 : mkResonance k init inter final noRecoil = .ok r0 := hr0
    rw [getDopplerWidth_ok k ha.ne'] at hdw
    simp only [Except.ok.injEq] at hdw
    simp only [mkPseudoVoigt, h1, hw, getDopplerWidth_ok k ha.ne', Bind.bind, Except.bind, hdw]
    simp only [Except.ok.injEq]
    have : ps = [] := hp
    rw [this]
  obtain ⟨-, hd', hp'⟩ := hP.inv
  refine ⟨_, hP, rfl, rfl, fun c => ?_, fun q n => ?_, pv_sigma hok hd' hp'⟩
  · simp only [Reso.coverageInterval, hd]; rfl
  · simp only [Reso.probGrid, hd]; rfl

theorem IsVoigtOf.sigma {r : Reso} {w d : ℝ} (h : IsVoigtOf r w d) (hw : 0 < w) (hd : 0 < d) :
    r.HasSigma fun E => r.ics * voigtDensity r.er (d / Real.sqrt 2) (w / 2) E := by
  obtain ⟨k, init, inter, amu, T, final, hr, ha, hT, hE, hwid, hdw, hw0, hne⟩ := h
  rw [getDopplerWidth_ok k ha.ne'] at hdw
  simp only [Except.ok.injEq] at hdw
  have := voigt_sigma hr ha hT hE hwid hw
  rw [hdw] at this
  have hs : 0 < d / Real.sqrt 2 := by positivity
  have e : ∀ E, coldVoigt r.er (w / 2) E (d / Real.sqrt 2) = voigtDensity r.er (d / Real.sqrt 2) (w / 2) E :=
    fun E => (coldVoigt_eq r.er E _ hs).symm
  simpa only [e] using this

/-- The Voigt and the pseudo-Voigt cross section of the same states: same total, nearly the same amount in every interval. -/
theorem IsVoigtOf.near {r : Reso} {w d : ℝ} (h : IsVoigtOf r w d) (hw : 0 < w) (hd : 0 < d) (hI : 0 ≤ r.ics) :
    (∫ E, r.ics * voigtDensity r.er (d / Real.sqrt 2) (w / 2) E) = r.ics ∧
    (∫ E, r.ics * (mkPV r.er w d).pdfR E) = r.ics ∧
    ∀ a b, a ≤ b → |(∫ E in a..b, r.ics * voigtDensity r.er (d / Real.sqrt 2) (w / 2) E) -
      ∫ E in a..b, r.ics * (mkPV r.er w d).pdfR E| ≤ 2.1 * (w / d) * r.ics := by
  obtain ⟨hok, -, -⟩ := h.inv
  refine ⟨?_, ?_, fun a b hab => ?_⟩
  · rw [integral_const_mul, voigt_integral r.er (show 0 < d / Real.sqrt 2 by positivity) (show 0 < w / 2 by positivity), mul_one]
  · rw [integral_const_mul, hok.good.integral, mul_one]
  · rw [intervalIntegral.integral_const_mul, intervalIntegral.integral_const_mul, hok.good.intervalIntegral, ← mul_sub, abs_mul,
      abs_of_nonneg hI, mul_comm]
    exact mul_le_mul_of_nonneg_right (voigt_pv_interval r.er hw hd hab) hI

/-- C83, the part that holds for resonances of finite width: the interval is symmetric about the resonance energy and carries the
fraction `c` of the cross section up to 2.1 times the ratio of natural width and Doppler width (the numerical error of the quantiles,
3.8e-8 MeV divided by the larger of the two widths, comes on top). This is within a few percent if the natural width is at most a
hundredth of the Doppler width. Missing: natural widths of the order of the Doppler width or larger (false for zero temperature, see
`C83_refuted`). -/
theorem C83_narrow_partial {r : Reso} {w d : ℝ} (h : IsVoigtOf r w d) (hw : 0 < w) (hd : 0 < d) (hI : 0 ≤ r.ics) {c : ℝ} (h0 : 0 ≤ c)
    (h1 : c < 1) (hG : 2 * Real.sqrt (Real.log 2) * d + w ≤ 2.5e22 * ((1 - c) / 2) ^ 4) :
    ∃ (ci : Reso.Cov) (σ : ℝ → ℝ) (lo hi : ℝ), r.coverageInterval c = .ok ci ∧ ci.lo = .fin lo ∧ ci.hi = .fin hi ∧
      r.HasSigma σ ∧ lo + hi = 2 * r.er ∧ lo ≤ hi ∧
      (c - 2.1 * (w / d) - 3.8e-8 / max w (2 * Real.sqrt (Real.log 2) * d)) * (∫ E, σ E) ≤ ∫ E in lo..hi, σ E ∧
      ∫ E in lo..hi, σ E ≤ (c + 2.1 * (w / d)) * ∫ E, σ E := by
  obtain ⟨p, hP, her, hics, hci, -, hs⟩ := h.pseudo
  obtain ⟨n1, n2, n3⟩ := h.near hw hd hI
  obtain ⟨ci, σ, lo, hi, e1, e2, e3, e4, e5, e6, e7, e8⟩ := C81_coverage hP (by rw [hics]; exact hI) h0 h1 hG
  obtain rfl := sigma_unique e4 hs
  refine ⟨ci, _, lo, hi, by rw [← hci]; exact e1, e2, e3, h.sigma hw hd, by rw [← her]; exact e5, e6, ?_, ?_⟩
  · have := abs_le.1 (n3 lo hi e6)
    rw [n1]
    rw [n2] at e7
    linarith
  · have := abs_le.1 (n3 lo hi e6)
    rw [n1]
    rw [n2] at e8
    linarith

/-! ## C156 -/

theorem near_shares_voigt {r : Reso} {w d : ℝ} (h : IsVoigtOf r w d) (hw : 0 < w) (hd : 0 < d) (hI : 0 ≤ r.ics) {g : List ℝ}
    (hg : g.Pairwise (· ≤ ·)) {v δ : ℝ} (hn : NearShares (fun E => r.ics * (mkPV r.er w d).pdfR E) g v δ) :
    NearShares (fun E => r.ics * voigtDensity r.er (d / Real.sqrt 2) (w / 2) E) g v (δ + 2.1 * (w / d) * r.ics) := by
  intro i hi
  have h1 := abs_le.1 (hn i hi)
  have hle : g[i] ≤ g[i + 1] := List.pairwise_iff_getElem.1 hg i (i + 1) (by omega) hi (by omega)
  have h2 := abs_le.1 ((h.near hw hd hI).2.2 _ _ hle)
  rw [abs_le]
  constructor <;> linarith

/-- C156, the part that holds: for a natural width that is small compared with the Doppler width, the equal-probability grid of a
Voigt resonance exists, has `n` sorted points, and every interval between two of the points - neighbours or not - carries the
corresponding share of the cross section, up to 2.1 times the ratio of the widths (and the numerical error of the quantiles). Missing:
natural widths of the order of the Doppler width or larger, see `C156_refuted`. -/
theorem C156_partial {r : Reso} {w d : ℝ} (h : IsVoigtOf r w d) (hw : 0 < w) (hd : 0 < d) (hI : 0 ≤ r.ics) {c : ℝ} (h0 : 0 ≤ c)
    (h1 : c < 1) (hG : 2 * Real.sqrt (Real.log 2) * d + w ≤ 2.5e22 * ((1 - c) / 2) ^ 4) (n : ℤ) (hn : 2 ≤ n) :
    ∃ (σ : ℝ → ℝ) (g : List ℝ), r.HasSigma σ ∧ r.probGrid (.cov c) n = .ok (some (g.map .fin)) ∧ (g.length : ℤ) = n ∧
      g.Pairwise (· ≤ ·) ∧
      ∀ i j, (hij : i ≤ j) → (hj : j < g.length) →
        |(∫ E in g[i]..g[j], σ E) - (j - i : ℝ) * (c / (n - 1)) * ∫ E, σ E| ≤
          (2.1 * (w / d) + 3.8e-8 / max w (2 * Real.sqrt (Real.log 2) * d)) * ∫ E, σ E := by
  obtain ⟨hok, hdist, hp⟩ := h.inv
  obtain ⟨n1, n2, n3⟩ := h.near hw hd hI
  obtain ⟨m, rfl⟩ : ∃ m : ℕ, n = (m : ℤ) + 2 := ⟨(n - 2).toNat, by omega⟩
  obtain ⟨xs, hx, hat, hsort⟩ := hok.grid_central (er := r.er) (ε := (1 - c) / 2) (by linarith) (hok.gamma_le.trans hG)
    (a := 0.5 * (1 - c)) (b := 0.5 * (1 + c)) (by linarith) (by linarith) (by linarith) m
  refine ⟨_, xs, h.sigma hw hd, ?_, ?_, hsort, fun i j hij hj => ?_⟩
  · unfold Reso.probGrid
    simp only [Bind.bind, Except.bind, linspace_nat]
    have := pv_ppf_linspace (mkPV r.er w d) (0.5 * (1 - c)) (0.5 * (1 + c)) m
    rw [hdist, hp, show (mkPV r.er w d).toSemiDist.ppf = (mkPV r.er w d).toDist.ppf from rfl, this, hx]
  · have := hat.length_eq
    simp [gridQ] at this
    omega
  · rw [n1]
    have hlen := hat.length_eq
    rw [List.forall₂_iff_get] at hat
    obtain ⟨hl, hat⟩ := hat
    have a1 := (hat i (by omega) (by omega)).1
    have a2 := (hat j (by omega) hj).1
    have hle : xs[i] ≤ xs[j] := by
      rcases hij.lt_or_eq with hlt | rfl
      · exact List.pairwise_iff_getElem.1 hsort i j (by omega) hj hlt
      · exact le_rfl
    have b := abs_le.1 (n3 _ _ hle)
    rw [intervalIntegral.integral_const_mul, intervalIntegral.integral_const_mul, hok.good.intervalIntegral] at b
    rw [intervalIntegral.integral_const_mul]
    simp only [gridQ, List.get_eq_getElem, List.getElem_map, List.getElem_range] at a1 a2
    have el := hok.error_le (er := r.er)
    have a1' := abs_le.1 (a1.trans el)
    have a2' := abs_le.1 (a2.trans el)
    have e38 : (3.8e-8 : ℝ) / max w (2 * Real.sqrt (Real.log 2) * d) = 2 * (1.9e-8 / max w (2 * Real.sqrt (Real.log 2) * d)) := by
      rw [mul_div_assoc']; norm_num
    rw [e38]
    generalize (1.9e-8 : ℝ) / max w (2 * Real.sqrt (Real.log 2) * d) = δ at *
    generalize (mkPV r.er w d).cdfR xs[i] = Fi at *
    generalize (mkPV r.er w d).cdfR xs[j] = Fj at *
    have ec : ((0.5 * (1 + c) - 0.5 * (1 - c)) / ((m : ℝ) + 1)) = c / ((((m : ℤ) + 2 : ℤ) : ℝ) - 1) := by
      push_cast
      congr 1 <;> ring
    rw [ec] at a1' a2'
    generalize c / ((((m : ℤ) + 2 : ℤ) : ℝ) - 1) = q at *
    have l1 := mul_le_mul_of_nonneg_left (show Fj - Fi ≤ (j - i : ℝ) * q + 2 * δ by linarith) hI
    have l2 := mul_le_mul_of_nonneg_left (show (j - i : ℝ) * q - 2 * δ ≤ Fj - Fi by linarith) hI
    rw [abs_le]
    constructor <;> linarith

theorem voigt_pv_below (er : ℝ) {w d : ℝ} (hw : 0 < w) (hd : 0 < d) (a : ℝ) :
    |(∫ E in Iic a, voigtDensity er (d / Real.sqrt 2) (w / 2) E) - (mkPV er w d).cdfR a| ≤ 2.1 * (w / d) := by
  have hok : PV.Ok w d := ⟨hw.le, hd.le, Or.inl hw⟩
  have hv := voigt_integrable er (show 0 < d / Real.sqrt 2 by positivity) (show 0 < w / 2 by positivity)
  have t1 := intervalIntegral_tendsto_integral_Iic a hv.integrableOn Filter.tendsto_id
  have t2 := intervalIntegral_tendsto_integral_Iic a (hok.good (er := er)).integrable.integrableOn Filter.tendsto_id
  rw [hok.good.integral_Iic] at t2
  refine le_of_tendsto (t1.sub t2).abs ((Filter.eventually_le_atBot a).mono fun x hx => ?_)
  have := voigt_pv_interval er hw hd hx
  simp only [id]
  rwa [hok.good.intervalIntegral]

/-- C156 with explicit limits around the resonance energy, a fraction of at least `ε` plus 2.1 times the ratio of the widths being
outside on either side: the grid exists, has `n` points, starts and ends exactly at the limits, is sorted and inside the limits, and
each interval carries the same share up to 4.2 times the ratio of the widths (and the numerical error). Missing: large widths. -/
theorem C156_limits_partial {r : Reso} {w d : ℝ} (h : IsVoigtOf r w d) (hw : 0 < w) (hd : 0 < d) {ε : ℝ} (hε : 0 < ε)
    (hG : 2 * Real.sqrt (Real.log 2) * d + w ≤ 2.5e22 * ε ^ 4) (hI : 0 < r.ics) {σ : ℝ → ℝ} (hσ : r.HasSigma σ) {a b : ℝ}
    (ha : a ≤ r.er) (hb : r.er ≤ b) (hqa : (ε + 2.1 * (w / d)) * ∫ E, σ E ≤ ∫ E in Iic a, σ E)
    (hqb : (ε + 2.1 * (w / d)) * ∫ E, σ E ≤ ∫ E in Ioi b, σ E) (n : ℤ) (hn : 2 ≤ n) :
    ∃ g : List ℝ, r.probGrid (.lims a b) n = .ok (some (g.map .fin)) ∧ (g.length : ℤ) = n ∧
      g.head? = some a ∧ g.getLast? = some b ∧ OrderedInside a b g ∧
      NearShares σ g ((∫ E in a..b, σ E) / (n - 1))
        ((4.2 * (w / d) + 3.8e-8 / max w (2 * Real.sqrt (Real.log 2) * d)) * ∫ E, σ E) := by
  obtain ⟨hok, -, -⟩ := h.inv
  obtain rfl := sigma_unique hσ (h.sigma hw hd)
  obtain ⟨p, hP, her, hics, -, hgrid, hs⟩ := h.pseudo
  obtain ⟨n1, n2, n3⟩ := h.near hw hd hI.le
  have hv := voigt_integrable r.er (show 0 < d / Real.sqrt 2 by positivity) (show 0 < w / 2 by positivity)
  have hv1 := voigt_integral r.er (show 0 < d / Real.sqrt 2 by positivity) (show 0 < w / 2 by positivity)
  have hca := abs_le.1 (voigt_pv_below r.er hw hd a)
  have hcb := abs_le.1 (voigt_pv_below r.er hw hd b)
  have hsplit := intervalIntegral.integral_Iic_add_Ioi (b := b) hv.integrableOn hv.integrableOn
  rw [hv1] at hsplit
  rw [n1, integral_const_mul] at hqa hqb
  have hqa' : ε + 2.1 * (w / d) ≤ ∫ E in Iic a, voigtDensity r.er (d / Real.sqrt 2) (w / 2) E := by
    refine le_of_mul_le_mul_left ?_ hI
    linarith
  have hqb' : ε + 2.1 * (w / d) ≤ ∫ E in Ioi b, voigtDensity r.er (d / Real.sqrt 2) (w / 2) E := by
    refine le_of_mul_le_mul_left ?_ hI
    linarith
  obtain ⟨g, g1, g2, g3, g4, g5, g6⟩ := C82_limits_grid (a := a) (b := b) hP hε hG (by rw [hics]; exact hI) hs (by rw [her]; exact ha) (by rw [her]; exact hb)
    (by rw [n2, integral_const_mul, hok.good.integral_Iic, mul_comm]; exact mul_le_mul_of_nonneg_left (by linarith) hI.le)
    (by rw [n2, integral_const_mul, hok.good.integral_Ioi, mul_comm]; exact mul_le_mul_of_nonneg_left (by linarith) hI.le) n hn
  refine ⟨g, by rw [← hgrid]; exact g1, g2, g3, g4, g5, fun i hi => ?_⟩
  have k1 := abs_le.1 (near_shares_voigt h hw hd hI.le g5.1 g6 i hi)
  have k2 := n3 a b (ha.trans hb)
  rw [n2] at k1
  rw [n1]
  have hn1 : (1 : ℝ) ≤ (n : ℝ) - 1 := by
    have : (2 : ℝ) ≤ n := by exact_mod_cast hn
    linarith
  have k3 : |(∫ E in a..b, r.ics * voigtDensity r.er (d / Real.sqrt 2) (w / 2) E) / ((n : ℝ) - 1) -
      (∫ E in a..b, r.ics * (mkPV r.er w d).pdfR E) / ((n : ℝ) - 1)| ≤ 2.1 * (w / d) * r.ics := by
    rw [← sub_div, abs_div, abs_of_pos (show (0 : ℝ) < (n : ℝ) - 1 by linarith)]
    exact (div_le_self (abs_nonneg _) hn1).trans k2
  have k3' := abs_le.1 k3
  rw [abs_le]
  constructor <;> linarith

/-- amount of a Lorentz curve between two points that are quantiles of a Lorentz curve of half the width -/
theorem cold_deficit (er : ℝ) {w : ℝ} (hpos : 0 < w) {c : ℝ} (h0 : 0 < c) (h1 : c < 1) {lo hi : ℝ}
    (hlo : (1 - c) / 2 ≤ cauchyCdf er (w / 4) lo) (hhi : cauchyCdf er (w / 4) hi ≤ (1 + c) / 2) :
    cauchyCdf er (0.5 * w) hi - cauchyCdf er (0.5 * w) lo ≤ 2 / Real.pi * Real.arctan (Real.tan (Real.pi * c / 2) / 2) ∧
      2 / Real.pi * Real.arctan (Real.tan (Real.pi * c / 2) / 2) < c := by
  have hpi := Real.pi_pos
  have hθ : Real.arctan (Real.tan (Real.pi * c / 2)) = Real.pi * c / 2 :=
    Real.arctan_tan (by nlinarith) (by nlinarith)
  have htpos : 0 < Real.tan (Real.pi * c / 2) := Real.tan_pos_of_pos_of_lt_pi_div_two (by positivity) (by nlinarith)
  set t := Real.tan (Real.pi * c / 2) with ht
  have ec : 1 / Real.pi * (Real.pi * c / 2) = c / 2 := by field_simp
  have hlo' : -t ≤ (lo - er) / (w / 4) := by
    by_contra hc
    push Not at hc
    have := Real.arctan_strictMono hc
    rw [Real.arctan_neg, hθ] at this
    unfold cauchyCdf at hlo
    have h2 := mul_lt_mul_of_pos_left this (show 0 < 1 / Real.pi by positivity)
    linarith
  have hhi' : (hi - er) / (w / 4) ≤ t := by
    by_contra hc
    push Not at hc
    have := Real.arctan_strictMono hc
    rw [hθ] at this
    unfold cauchyCdf at hhi
    have h2 := mul_lt_mul_of_pos_left this (show 0 < 1 / Real.pi by positivity)
    linarith
  have e : ∀ x, (x - er) / (0.5 * w) = (x - er) / (w / 4) / 2 := fun x => by field_simp; ring
  constructor
  · have k1 : -(t / 2) ≤ (lo - er) / (0.5 * w) := by rw [e]; linarith
    have k2 : (hi - er) / (0.5 * w) ≤ t / 2 := by rw [e]; linarith
    have m1 := Real.arctan_strictMono.monotone k1
    have m2 := Real.arctan_strictMono.monotone k2
    rw [Real.arctan_neg] at m1
    have m1' := mul_le_mul_of_nonneg_left m1 (show 0 ≤ 1 / Real.pi by positivity)
    have m2' := mul_le_mul_of_nonneg_left m2 (show 0 ≤ 1 / Real.pi by positivity)
    simp only [cauchyCdf]
    have e : 2 / Real.pi * Real.arctan (t / 2) = 2 * (1 / Real.pi * Real.arctan (t / 2)) := by ring
    rw [e]
    linarith
  · have : Real.arctan (t / 2) < Real.pi * c / 2 := by
      rw [← hθ]
      exact Real.arctan_strictMono (by linarith)
    calc _ < 2 / Real.pi * (Real.pi * c / 2) := mul_lt_mul_of_pos_left this (by positivity)
      _ = c := by field_simp

/-- C156 is false of the code: at zero temperature the equal-probability grid of a Voigt resonance exists and has `n` sorted points, but
the amount between the first and the last one is at most the fraction (2/π) arctan(tan(π c / 2) / 2) < c, for every coverage and every
`n`; so the intervals do not carry the share `c / (n - 1)` each (for a coverage of 50 %, less than two thirds of it on average, see `C83_half`). -/
theorem C156_refuted {k : PhysConst} {init inter : Level} {final : Option Level} {amu w : ℝ} {r : Reso}
    (hr : mkVoigt k init inter amu 0 final = .ok r) (ha : 0 < amu) (hE : init.exc < inter.exc) (hw : inter.width = .ok w) (hpos : 0 < w)
    (hI : 0 < r.ics) {c : ℝ} (h0 : 0 < c) (h1 : c < 1) (hG : w ≤ 2.5e22 * ((1 - c) / 2) ^ 4) (n : ℤ) (hn : 2 ≤ n) :
    ∃ (σ : ℝ → ℝ) (g : List ℝ) (lo hi : ℝ), r.HasSigma σ ∧ r.probGrid (.cov c) n = .ok (some (g.map .fin)) ∧ (g.length : ℤ) = n ∧
      g.Pairwise (· ≤ ·) ∧ g.head? = some lo ∧ g.getLast? = some hi ∧
      ∫ E in lo..hi, σ E ≤ 2 / Real.pi * Real.arctan (Real.tan (Real.pi * c / 2) / 2) * ∫ E, σ E ∧
      2 / Real.pi * Real.arctan (Real.tan (Real.pi * c / 2) / 2) < c ∧
      ¬ NearShares σ g (c / (n - 1) * ∫ E, σ E) 0 := by
  have hdw : getDopplerWidth k amu 0 r.er = .ok 0 := by
    rw [getDopplerWidth_ok k ha.ne']; simp [dopplerWidth]
  have hV : IsVoigtOf r w 0 := ⟨k, init, inter, amu, 0, final, hr, ha, le_rfl, hE, hw, hdw, hpos.le, Or.inl hpos⟩
  obtain ⟨hok, hdist, hp⟩ := hV.inv
  have hpi := Real.pi_pos
  obtain ⟨eη, ek⟩ := mkPV_doppler_zero r.er hpos
  have hF : (mkPV r.er w 0).cdfR = cauchyCdf r.er (w / 4) := by
    funext x; simp [PV.cdfR, eη, ek]; rfl
  have hg2 := cauchy_good r.er (by linarith : 0 < 0.5 * w)
  have hσ : r.HasSigma fun E => r.ics * cauchyPdf r.er (0.5 * w) E := by
    intro E
    rw [voigt_call hr ha.ne' hw E]
    have hz : dopplerWidth k amu 0 r.er = 0 := by simp [dopplerWidth]
    simp only [hz, zero_div, voigtProfile, if_true]
    rw [if_neg (by linarith), cauchyPdf_shift]
    rfl
  obtain ⟨m, rfl⟩ : ∃ m : ℕ, n = (m : ℤ) + 2 := ⟨(n - 2).toNat, by omega⟩
  obtain ⟨xs, hx, hat, hsort⟩ := hok.grid_central (er := r.er) (ε := (1 - c) / 2) (by linarith)
    (hok.gamma_le.trans (by rw [mul_zero, zero_add]; exact hG))
    (a := 0.5 * (1 - c)) (b := 0.5 * (1 + c)) (by linarith) (by linarith) (by linarith) m
  have hlen : xs.length = m + 2 := by have := hat.length_eq; simp [gridQ] at this; omega
  have hat' := List.forall₂_iff_get.1 hat
  have q0 := hat'.2 0 (by simp [gridQ]) (by omega)
  have q1 := hat'.2 (m + 1) (by simp [gridQ]) (by omega)
  simp only [gridQ, List.get_eq_getElem, List.getElem_map, List.getElem_range] at q0 q1
  have hm1 : (0.5 * (1 - c) + ((m + 1 : ℕ) : ℝ) * ((0.5 * (1 + c) - 0.5 * (1 - c)) / ((m : ℝ) + 1))) = (1 + c) / 2 := by
    push_cast
    field_simp
    ring
  have hm0 : (0.5 * (1 - c) + ((0 : ℕ) : ℝ) * ((0.5 * (1 + c) - 0.5 * (1 - c)) / ((m : ℝ) + 1))) = (1 - c) / 2 := by
    push_cast
    ring
  rw [hm0] at q0
  rw [hm1] at q1
  have b0 := (q0.2.2 (by linarith)).2
  have b1 := (q1.2.1 (by linarith)).2
  rw [hF] at b0 b1
  obtain ⟨d1, d2⟩ := cold_deficit r.er hpos h0 h1 b0 b1
  have htot : ∫ E in xs[0]..xs[m + 1], r.ics * cauchyPdf r.er (0.5 * w) E ≤
      2 / Real.pi * Real.arctan (Real.tan (Real.pi * c / 2) / 2) * r.ics := by
    rw [intervalIntegral.integral_const_mul, hg2.intervalIntegral, mul_comm _ r.ics]
    exact mul_le_mul_of_nonneg_left d1 hI.le
  refine ⟨_, xs, xs[0], xs[m + 1], hσ, ?_, ?_, hsort, ?_, ?_, ?_, d2, ?_⟩
  · unfold Reso.probGrid
    simp only [Bind.bind, Except.bind, linspace_nat]
    have := pv_ppf_linspace (mkPV r.er w 0) (0.5 * (1 - c)) (0.5 * (1 + c)) m
    rw [hdist, hp, show (mkPV r.er w 0).toSemiDist.ppf = (mkPV r.er w 0).toDist.ppf from rfl, this, hx]
  · omega
  · rw [List.head?_eq_getElem?, List.getElem?_eq_getElem (by omega)]
  · rw [List.getLast?_eq_getElem?, List.getElem?_eq_getElem (by omega)]
    simp [hlen]
  · rw [integral_const_mul, hg2.integral, mul_one]; exact htot
  · intro hN
    rw [integral_const_mul, hg2.integral, mul_one] at hN
    -- the shares add up
    have hsum : ∀ j (hj : j < xs.length), ∫ E in xs[0]..xs[j], r.ics * cauchyPdf r.er (0.5 * w) E =
        j * (c / ((((m : ℤ) + 2 : ℤ) : ℝ) - 1) * r.ics) := by
      intro j
      induction j with
      | zero => intro _; simp
      | succ j ih =>
        intro hj
        have hc : ∀ a b : ℝ, IntervalIntegrable (fun E => r.ics * cauchyPdf r.er (0.5 * w) E) volume a b :=
          fun a b => (hg2.integrable.const_mul _).intervalIntegrable
        rw [← intervalIntegral.integral_add_adjacent_intervals (hc _ xs[j]) (hc xs[j] _), ih (by omega)]
        have := hN j hj
        rw [abs_nonpos_iff, sub_eq_zero] at this
        rw [this]
        push_cast
        ring
    have := hsum (m + 1) (by omega)
    rw [this] at htot
    have e : ((m + 1 : ℕ) : ℝ) * (c / ((((m : ℤ) + 2 : ℤ) : ℝ) - 1) * r.ics) = c * r.ics := by
      push_cast
      have : (m : ℝ) + 2 - 1 = m + 1 := by ring
      rw [this]
      field_simp
    rw [e] at htot
    have := le_of_mul_le_mul_right htot hI
    linarith

/-- The hypotheses of `C156_refuted` are met. -/
example : ∃ r, mkVoigt exConst exGround exMid 11 0 none = .ok r ∧ exMid.width = .ok 1e-5 ∧ exGround.exc < exMid.exc ∧ 0 < r.ics ∧
    (1e-5 : ℝ) ≤ 2.5e22 * ((1 - 0.95) / 2) ^ 4 := by
  obtain ⟨r, hr, he, hI⟩ := exMid_resonance
  refine ⟨{ r with dist := (mkPV r.er 1e-5 0).toSemiDist, params := [] }, ?_, exMid_width,
    by norm_num [exGround, exMid, groundState, state], hI, by norm_num⟩
  simp [mkVoigt, mkPseudoVoigt, hr, exMid_width, getDopplerWidth_ok exConst (show (11 : ℝ) ≠ 0 by norm_num), Bind.bind, Except.bind,
    dopplerWidth]

/-- a level of width 2e-8 MeV -/
noncomputable def exThin : Level := state "1/2^-_1" 1 (-1) 2 [("3/2^-_1", 2e-8)]

theorem exThin_width : exThin.width = .ok 2e-8 := by
  simp [Level.width, Level.partialWidths, exThin, state, lookup, pyNumSum, Bind.bind, Except.bind, pure, Except.pure]

theorem exThin_resonance : ∃ r, mkResonance exConst exGround exThin none noRecoil = .ok r ∧ r.er = 2 ∧ 0 < r.ics := by
  have := Real.pi_pos
  simp [mkResonance, statFactor, fdiv, branchingRatio, integratedCS, exGround, exThin, exConst, groundState, state,
    Level.partialWidths, lookup, Bind.bind, Except.bind, noRecoil]
  rw [if_neg (by norm_num)]
  refine ⟨_, rfl, rfl, ?_⟩
  simp only
  positivity

/-- Doppler width at 293 K: between 4e-6 and 5e-6 MeV -/
theorem exThin_doppler : 4e-6 ≤ dopplerWidth exConst 11 293 2 ∧ dopplerWidth exConst 11 293 2 ≤ 5e-6 := by
  unfold dopplerWidth
  constructor
  · have : (2e-6 : ℝ) ≤ Real.sqrt (2 * exConst.kB * 1e-6 * 293 / (11 * exConst.u)) :=
      Real.le_sqrt_of_sq_le (by norm_num [exConst])
    linarith
  · have : Real.sqrt (2 * exConst.kB * 1e-6 * 293 / (11 * exConst.u)) ≤ 2.5e-6 :=
      Real.sqrt_le_iff.2 ⟨by norm_num, by norm_num [exConst]⟩
    linarith

/-- A level of 20 meV at room temperature meets the hypotheses of `C83_narrow_partial`, `C156_partial` and `C156_limits_partial`; the
bound on the deviation is about 1 %. -/
example : ∃ r d, IsVoigtOf r 2e-8 d ∧ 0 < d ∧ 0 < r.ics ∧ 2.1 * (2e-8 / d) ≤ 0.0105 ∧
    2 * Real.sqrt (Real.log 2) * d + 2e-8 ≤ 2.5e22 * ((1 - 0.95) / 2) ^ 4 ∧
    ∃ σ a b, r.HasSigma σ ∧ a < r.er ∧ r.er < b ∧ (0.01 + 2.1 * (2e-8 / d)) * ∫ E, σ E ≤ ∫ E in Iic a, σ E ∧
      (0.01 + 2.1 * (2e-8 / d)) * ∫ E, σ E ≤ ∫ E in Ioi b, σ E := by
  obtain ⟨r, hr, he, hI⟩ := exThin_resonance
  obtain ⟨l1, l2⟩ := exThin_doppler
  have hw : (0 : ℝ) < 2e-8 := by norm_num
  have hd : 0 < dopplerWidth exConst 11 293 2 := by linarith
  have hV : IsVoigtOf { r with dist := (mkPV r.er 2e-8 (dopplerWidth exConst 11 293 2)).toSemiDist, params := [] } 2e-8
      (dopplerWidth exConst 11 293 2) := by
    refine ⟨exConst, exGround, exThin, 11, 293, none, ?_, by norm_num, by norm_num,
      by norm_num [exGround, exThin, groundState, state], exThin_width, ?_, by norm_num, Or.inl (by norm_num)⟩
    · simp [mkVoigt, mkPseudoVoigt, hr, exThin_width, getDopplerWidth_ok exConst (show (11 : ℝ) ≠ 0 by norm_num), Bind.bind, Except.bind,
        he]
    · rw [getDopplerWidth_ok exConst (show (11 : ℝ) ≠ 0 by norm_num)]
      simp [he]
  have hr1 : 2.1 * (2e-8 / dopplerWidth exConst 11 293 2) ≤ 0.0105 := by
    rw [← mul_div_assoc, div_le_iff₀ hd]; linarith
  obtain ⟨hok, -, -⟩ := hV.inv
  obtain ⟨n1, n2, n3⟩ := hV.near hw hd hI.le
  have hv := voigt_integrable r.er (show 0 < dopplerWidth exConst 11 293 2 / Real.sqrt 2 by positivity) (show (0 : ℝ) < 2e-8 / 2 by positivity)
  have hv1 := voigt_integral r.er (show 0 < dopplerWidth exConst 11 293 2 / Real.sqrt 2 by positivity) (show (0 : ℝ) < 2e-8 / 2 by positivity)
  obtain ⟨a, ha⟩ := (hok.good (er := r.er)).surj (q := 0.1) (by norm_num) (by norm_num)
  obtain ⟨b, hb⟩ := (hok.good (er := r.er)).surj (q := 0.9) (by norm_num) (by norm_num)
  have hhalf := hok.half (er := r.er)
  have hca := abs_le.1 (voigt_pv_below r.er hw hd a)
  have hcb := abs_le.1 (voigt_pv_below r.er hw hd b)
  have hsplit := intervalIntegral.integral_Iic_add_Ioi (b := b) hv.integrableOn hv.integrableOn
  rw [hv1] at hsplit
  refine ⟨_, _, hV, hd, hI, hr1, ?_, _, a, b, hV.sigma hw hd, ?_, ?_, ?_, ?_⟩
  · have h : Real.sqrt (Real.log 2) ≤ 1 := Real.sqrt_le_one.2 (by have := Real.log_two_lt_d9; linarith)
    have := mul_le_mul h l2 hd.le zero_le_one
    norm_num
    linarith
  · exact (hok.good (er := r.er)).strictMono.lt_iff_lt.1 (by rw [ha, hhalf]; norm_num)
  · exact (hok.good (er := r.er)).strictMono.lt_iff_lt.1 (by rw [hb, hhalf]; norm_num)
  · rw [n1, integral_const_mul, mul_comm]
    refine mul_le_mul_of_nonneg_left ?_ hI.le
    simp only
    linarith
  · rw [n1, integral_const_mul, mul_comm]
    refine mul_le_mul_of_nonneg_left ?_ hI.le
    simp only
    linarith

/-! ## C83 for broad resonances -/

/-- C83 is false of the code at positive temperatures as well: if the Doppler-broadened full width at half maximum `2 √(ln 2) Δ` is at
most an eighth of the natural width, then the interval for a coverage of 50 % carries less than a third of the cross section. -/
theorem C83_broad_refuted {r : Reso} {w d : ℝ} (h : IsVoigtOf r w d) (hw : 0 < w) (hd : 0 < d) (hI : 0 < r.ics)
    (hle : 2 * Real.sqrt (Real.log 2) * d ≤ w / 8) (hG : w ≤ 5e19) :
    ∃ (ci : Reso.Cov) (σ : ℝ → ℝ) (lo hi : ℝ), r.coverageInterval (1 / 2) = .ok ci ∧ ci.lo = .fin lo ∧ ci.hi = .fin hi ∧
      r.HasSigma σ ∧ lo + hi = 2 * r.er ∧ lo ≤ hi ∧ ∫ E in lo..hi, σ E < 1 / 3 * ∫ E, σ E := by
  obtain ⟨hok, hdist, hp⟩ := h.inv
  obtain ⟨n1, -, -⟩ := h.near hw hd hI.le
  have hpi := Real.pi_pos
  have hGb : 2 * Real.sqrt (Real.log 2) * d + w ≤ 2.5e22 * ((1 - 1 / 2) / 2) ^ 4 := by norm_num at hG ⊢; linarith
  obtain ⟨ci, lo, hi, e1, e2, e3, e4, e5, hcase⟩ := pv_coverage (c := 1 / 2) hok (by rw [hdist]; rfl) (by rw [hdist]; rfl) hp
    (by norm_num) (by norm_num)
  have hq : (mkPV r.er w d).cdfR hi ≤ 3 / 4 ∧ r.er ≤ hi := by
    rcases hcase with ⟨q1, q2⟩ | ⟨hf, -⟩
    · have := q2.2.1 (by norm_num)
      exact ⟨this.2.trans (by norm_num), this.1⟩
    · obtain ⟨xs, hx⟩ := hok.ppfArray_central (er := r.er) (ε := (1 - 1 / 2) / 2) (by norm_num) (hok.gamma_le.trans hGb)
        (qs := [(1 - 1 / 2) / 2, (1 + 1 / 2) / 2]) (by simp) (by
        intro q hq
        simp only [List.mem_cons, List.not_mem_nil, or_false] at hq
        rcases hq with rfl | rfl <;> constructor <;> norm_num)
      rw [hx] at hf
      cases hf
  obtain ⟨hq, herhi⟩ := hq
  refine ⟨ci, _, lo, hi, e1, e2, e3, h.sigma hw hd, e4, by linarith, ?_⟩
  obtain ⟨L, rfl⟩ : ∃ L, hi = r.er + L := ⟨hi - r.er, by ring⟩
  have hlo : lo = r.er - L := by linarith
  subst hlo
  have hL : 0 ≤ L := by linarith
  rw [n1, intervalIntegral.integral_const_mul, mul_comm]
  refine mul_lt_mul_of_pos_right (lt_of_le_of_lt (voigt_interval_le_cauchy r.er (show 0 < d / Real.sqrt 2 by positivity)
    (show 0 < w / 2 by positivity) hL) ?_) hI
  -- the pseudo-Voigt distribution
  set g := 2 * Real.sqrt (Real.log 2) * d with hg
  have hg0 : 0 ≤ g := hok.g0
  set G := pvGamma g w with hGd
  have hwG : w ≤ G := pvGamma_ge_right hg0 hw.le
  have hG0 : 0 < G := hw.trans_le hwG
  have hGle : G ≤ 1.02 * w := by
    rw [hGd, pvGamma_eq hg0 hw.le]
    have h0 : 0 ≤ pvBase g w := (by positivity : 0 ≤ g ^ 5).trans (pvBase_ge_left hg0 hw.le)
    calc _ ≤ ((1.02 * w) ^ 5) ^ (0.2 : ℝ) := Real.rpow_le_rpow h0 (by
          have hm : pvBase g w ≤ pvBase (w / 8) w := by unfold pvBase; gcongr
          refine hm.trans ?_
          unfold pvBase
          have : 0 < w ^ 5 := by positivity
          nlinarith) (by norm_num)
      _ = 1.02 * w := pow_five_root (by positivity)
  have hcs : (mkPV r.er w d).cauchyScale = G / 4 := by
    simp only [PV.cauchyScale, mkPV, ← hg, ← hGd]
    ring
  have her : (mkPV r.er w d).er = r.er := rfl
  have hη : (mkPV r.er w d).eta = pvEta w G := rfl
  obtain ⟨hη0, hη1⟩ := pvEta_bounds hw.le hwG hG0
  have hq0 : 0.98 ≤ w / G := by rw [le_div_iff₀ hG0]; linarith
  have hq1 : w / G ≤ 1 := (div_le_one hG0).2 hwG
  have hηle : 0.95 ≤ pvEta w G := by
    rw [pvEta_ratio]
    generalize w / G = q at *
    nlinarith [mul_nonneg (sub_nonneg.2 hq0) (sub_nonneg.2 hq1), mul_nonneg (sub_nonneg.2 hq0) (sub_nonneg.2 hq0), sq_nonneg q, mul_nonneg (mul_nonneg (sub_nonneg.2 hq0) (sub_nonneg.2 hq0)) (sub_nonneg.2 hq0)]
  have hNgood := norm_good r.er (hok.valid (er := r.er)).1
  have hNhalf : 1 / 2 ≤ normCdf r.er (mkPV r.er w d).normScale (r.er + L) := by
    rw [← hNgood.half_of_symm r.er (norm_peaked r.er (hok.valid (er := r.er)).1).symm]
    exact hNgood.strictMono.monotone (by linarith)
  have hC : cauchyCdf r.er (G / 4) (r.er + L) ≤ 1 / 2 + 1 / (4 * 0.95) := by
    simp only [PV.cdfR, hη, hcs, her] at hq
    have : pvEta w G * (cauchyCdf r.er (G / 4) (r.er + L) - 1 / 2) ≤ 1 / 4 := by nlinarith
    by_contra hc
    push Not at hc
    have h1 : 1 / (4 * 0.95) < cauchyCdf r.er (G / 4) (r.er + L) - 1 / 2 := by linarith
    have h2 : 0.95 * (1 / (4 * 0.95)) < pvEta w G * (cauchyCdf r.er (G / 4) (r.er + L) - 1 / 2) :=
      mul_lt_mul' hηle h1 (by norm_num) (by linarith)
    norm_num at h2
    linarith
  have hx : L / (G / 4) < 1.1 := by
    by_contra hc
    push Not at hc
    have h1 := Real.arctan_strictMono.monotone hc
    have h2 := arctan_beyond_one
    have e : cauchyCdf r.er (G / 4) (r.er + L) = 1 / 2 + Real.arctan (L / (G / 4)) / Real.pi := by
      unfold cauchyCdf
      rw [add_sub_cancel_left]
      ring
    rw [e] at hC
    have h3 : Real.arctan (L / (G / 4)) / Real.pi ≤ 1 / (4 * 0.95) := by linarith
    rw [div_le_iff₀ hpi] at h3
    have := Real.pi_lt_d2
    norm_num at h3 h2 this
    linarith
  have hx2 : L / (w / 2) < 0.565 := by
    rw [div_lt_iff₀ (by positivity)] at hx ⊢
    linarith
  have hfin : Real.arctan (L / (w / 2)) < Real.pi / 6 := by
    rw [← Real.arctan_inv_sqrt_three]
    refine Real.arctan_strictMono (hx2.trans ?_)
    rw [lt_inv_comm₀ (by norm_num) (by positivity), Real.sqrt_lt' (by norm_num)]
    norm_num
  have e : cauchyCdf r.er (w / 2) (r.er + L) - cauchyCdf r.er (w / 2) (r.er - L) = 2 * Real.arctan (L / (w / 2)) / Real.pi := by
    unfold cauchyCdf
    rw [add_sub_cancel_left, show r.er - L - r.er = -L by ring, neg_div, Real.arctan_neg]
    ring
  rw [e, div_lt_iff₀ hpi]
  linarith

/-- The hypotheses are met by the level of 10 eV at 1 K. -/
example : ∃ r d, IsVoigtOf r 1e-5 d ∧ 0 < d ∧ 0 < r.ics ∧ 2 * Real.sqrt (Real.log 2) * d ≤ 1e-5 / 8 ∧ (1e-5 : ℝ) ≤ 5e19 := by
  obtain ⟨r, hr, he, hI⟩ := exMid_resonance
  have l2 : dopplerWidth exConst 11 1 2 ≤ 5e-7 := by
    unfold dopplerWidth
    have : Real.sqrt (2 * exConst.kB * 1e-6 * 1 / (11 * exConst.u)) ≤ 2.5e-7 :=
      Real.sqrt_le_iff.2 ⟨by norm_num, by norm_num [exConst]⟩
    linarith
  have hd : 0 < dopplerWidth exConst 11 1 2 := dopplerWidth_pos exConst (by norm_num) (by norm_num) (by norm_num)
  refine ⟨{ r with dist := (mkPV r.er 1e-5 (dopplerWidth exConst 11 1 2)).toSemiDist, params := [] }, _,
    ⟨exConst, exGround, exMid, 11, 1, none, ?_, by norm_num, by norm_num,
      by norm_num [exGround, exMid, groundState, state], exMid_width, ?_, by norm_num, Or.inl (by norm_num)⟩, hd, hI, ?_, by norm_num⟩
  · simp [mkVoigt, mkPseudoVoigt, hr, exMid_width, getDopplerWidth_ok exConst (show (11 : ℝ) ≠ 0 by norm_num), Bind.bind, Except.bind,
      he]
  · rw [getDopplerWidth_ok exConst (show (11 : ℝ) ≠ 0 by norm_num)]
    simp [he]
  · have h : Real.sqrt (Real.log 2) ≤ 1 := Real.sqrt_le_one.2 (by have := Real.log_two_lt_d9; linarith)
    have := mul_le_mul h l2 hd.le zero_le_one
    norm_num at this ⊢
    linarith

end Ries
