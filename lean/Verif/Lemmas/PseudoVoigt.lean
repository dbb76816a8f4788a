import Verif.Model.PseudoVoigt
import Verif.Lemmas.Dist
import Mathlib.Analysis.SpecialFunctions.Pow.Real
import Mathlib.Tactic.LinearCombination

/-! # Lemmas on the pseudo-Voigt parameters -/

open MeasureTheory

namespace Ries

theorem sqrt_log_two_pos : 0 < Real.sqrt (Real.log 2) := Real.sqrt_pos.2 (Real.log_pos one_lt_two)

/-- the polynomial under the fifth root -/
noncomputable def pvBase (g l : ℝ) : ℝ :=
  g ^ 5 + 2.69269 * g ^ 4 * l + 2.42843 * g ^ 3 * l ^ 2 + 4.47163 * g ^ 2 * l ^ 3 + 0.07842 * g * l ^ 4 + l ^ 5

theorem pvBase_ge_left {g l : ℝ} (hg : 0 ≤ g) (hl : 0 ≤ l) : g ^ 5 ≤ pvBase g l := by
  unfold pvBase
  have : 0 ≤ 2.69269 * g ^ 4 * l + 2.42843 * g ^ 3 * l ^ 2 + 4.47163 * g ^ 2 * l ^ 3 + 0.07842 * g * l ^ 4 + l ^ 5 := by
    positivity
  linarith

theorem pvBase_ge_right {g l : ℝ} (hg : 0 ≤ g) (hl : 0 ≤ l) : l ^ 5 ≤ pvBase g l := by
  unfold pvBase
  have : 0 ≤ g ^ 5 + 2.69269 * g ^ 4 * l + 2.42843 * g ^ 3 * l ^ 2 + 4.47163 * g ^ 2 * l ^ 3 + 0.07842 * g * l ^ 4 := by
    positivity
  linarith

theorem pvGamma_eq {g l : ℝ} (hg : 0 ≤ g) (hl : 0 ≤ l) : pvGamma g l = pvBase g l ^ (0.2 : ℝ) := by
  have e : g * g * (g * g) * g + 2.69269 * (g * g * (g * g)) * l + 2.42843 * (g * g) * g * (l * l)
    + 4.47163 * (g * g) * (l * l * l) + 0.07842 * g * (l * l * (l * l)) + l * l * (l * l) * l = pvBase g l := by
    unfold pvBase; ring
  have h0 : 0 ≤ pvBase g l := (by positivity : 0 ≤ g ^ 5).trans (pvBase_ge_left hg hl)
  simp only [pvGamma, e]
  rw [if_neg (not_lt.2 h0)]

theorem pow_five_root {x : ℝ} (hx : 0 ≤ x) : (x ^ 5) ^ (0.2 : ℝ) = x := by
  rw [← Real.rpow_natCast, ← Real.rpow_mul hx]
  norm_num

theorem pvGamma_ge_left {g l : ℝ} (hg : 0 ≤ g) (hl : 0 ≤ l) : g ≤ pvGamma g l := by
  rw [pvGamma_eq hg hl]
  calc g = (g ^ 5) ^ (0.2 : ℝ) := (pow_five_root hg).symm
    _ ≤ _ := Real.rpow_le_rpow (by positivity) (pvBase_ge_left hg hl) (by norm_num)

theorem pvGamma_ge_right {g l : ℝ} (hg : 0 ≤ g) (hl : 0 ≤ l) : l ≤ pvGamma g l := by
  rw [pvGamma_eq hg hl]
  calc l = (l ^ 5) ^ (0.2 : ℝ) := (pow_five_root hl).symm
    _ ≤ _ := Real.rpow_le_rpow (by positivity) (pvBase_ge_right hg hl) (by norm_num)

theorem pvGamma_zero_right {g : ℝ} (hg : 0 ≤ g) : pvGamma g 0 = g := by
  rw [pvGamma_eq hg le_rfl]
  have : pvBase g 0 = g ^ 5 := by unfold pvBase; ring
  rw [this, pow_five_root hg]

theorem pvGamma_zero_left {l : ℝ} (hl : 0 ≤ l) : pvGamma 0 l = l := by
  rw [pvGamma_eq le_rfl hl]
  have : pvBase 0 l = l ^ 5 := by unfold pvBase; ring
  rw [this, pow_five_root hl]

theorem pvEta_ratio (l gam : ℝ) : pvEta l gam = 1.36603 * (l / gam) - 0.47719 * (l / gam) ^ 2 + 0.11116 * (l / gam) ^ 3 := by
  unfold pvEta
  simp only [div_eq_mul_inv]
  ring

theorem pvEta_bounds {l gam : ℝ} (hl : 0 ≤ l) (hle : l ≤ gam) (hg : 0 < gam) : 0 ≤ pvEta l gam ∧ pvEta l gam ≤ 1 := by
  rw [pvEta_ratio]
  have h0 : 0 ≤ l / gam := div_nonneg hl hg.le
  have h1 : l / gam ≤ 1 := (div_le_one hg).2 hle
  generalize l / gam = r at *
  constructor
  · have : 0 ≤ r * (1.36603 - 0.47719 * r) := mul_nonneg h0 (by nlinarith)
    have : 0 ≤ r ^ 3 := by positivity
    nlinarith
  · have e : 1 - (1.36603 * r - 0.47719 * r ^ 2 + 0.11116 * r ^ 3) = (1 - r) * (1 - 0.36603 * r + 0.11116 * r ^ 2) := by
      ring
    have : 0 ≤ (1 - r) * (1 - 0.36603 * r + 0.11116 * r ^ 2) := by
      refine mul_nonneg (by linarith) ?_
      nlinarith [sq_nonneg r]
    linarith

namespace PV

/-- the parameters are those of a distribution: nonnegative Doppler width and width, not both zero -/
structure Ok (w d : ℝ) : Prop where
  w0 : 0 ≤ w
  d0 : 0 ≤ d
  ne : 0 < w ∨ 0 < d

variable {er w d : ℝ}

theorem Ok.g0 (h : Ok w d) : 0 ≤ 2 * Real.sqrt (Real.log 2) * d :=
  mul_nonneg (by have := sqrt_log_two_pos; positivity) h.d0

theorem Ok.gamma_pos (h : Ok w d) : 0 < (mkPV er w d).bigGamma := by
  simp only [mkPV]
  rcases h.ne with hw | hd
  · exact hw.trans_le (pvGamma_ge_right h.g0 h.w0)
  · have : 0 < 2 * Real.sqrt (Real.log 2) * d := by have := sqrt_log_two_pos; positivity
    exact this.trans_le (pvGamma_ge_left h.g0 h.w0)

theorem Ok.eta_bounds (h : Ok w d) : 0 ≤ (mkPV er w d).eta ∧ (mkPV er w d).eta ≤ 1 :=
  pvEta_bounds h.w0 (pvGamma_ge_right h.g0 h.w0) (h.gamma_pos (er := er))

theorem Ok.normScale_pos (h : Ok w d) : 0 < (mkPV er w d).normScale := by
  have h1 := h.gamma_pos (er := er)
  have h2 := sqrt_log_two_pos
  have e : (mkPV er w d).normScale = (mkPV er w d).bigGamma / (2 * Real.sqrt (Real.log 2)) / Real.sqrt 2 := rfl
  rw [e]
  positivity

theorem Ok.cauchyScale_pos (h : Ok w d) : 0 < (mkPV er w d).cauchyScale := by
  have h1 := h.gamma_pos (er := er)
  have e : (mkPV er w d).cauchyScale = 0.5 * (0.5 * (mkPV er w d).bigGamma) := rfl
  rw [e]
  linarith

theorem Ok.valid (h : Ok w d) : (mkPV er w d).Valid := ⟨h.normScale_pos, h.cauchyScale_pos⟩

theorem Ok.good (h : Ok w d) : GoodCDF (mkPV er w d).cdfR (mkPV er w d).pdfR :=
  (norm_good _ h.normScale_pos).mix (cauchy_good _ h.cauchyScale_pos) h.eta_bounds.1 h.eta_bounds.2

theorem Ok.peaked (h : Ok w d) : Peaked er (mkPV er w d).pdfR :=
  (norm_peaked er (h.normScale_pos (er := er))).mix (cauchy_peaked er (h.cauchyScale_pos (er := er)))
    h.eta_bounds.1 h.eta_bounds.2

theorem Ok.half (h : Ok w d) : (mkPV er w d).cdfR er = 1 / 2 := h.good.half_of_symm er h.peaked.symm

end PV

end Ries
