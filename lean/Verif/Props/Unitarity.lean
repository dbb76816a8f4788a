import Verif.Props.State
import Verif.Props.PseudoVoigt
import Verif.Props.VoigtLimits
import Verif.Props.DopplerSpread
import Verif.Props.Beam
import Verif.Props.Coverage

/-!
C174: no cross section exceeds the unitarity limit.

A photon of wavelength λ that meets a nucleus of spin `J₀` cannot excite a state of spin `J` with a cross section above
`λ²/(2π) (2 J + 1)/(2 J₀ + 1)`. True of Breit-Wigner and Voigt, false of Gauss at low temperatures and of pseudo-Voigt.
-/

namespace Ries

/-! ## Specification -/

/-- `λ²/(2π) (2 J + 1)/(2 J₀ + 1)` for photons of energy `E`, where `λ = 2π ħc / E`. -/
noncomputable def unitarityLimit (k : PhysConst) (init inter : Level) (E : ℝ) : ℝ :=
  (2 * Real.pi * k.hbarc / E) ^ 2 / (2 * Real.pi) * (((inter.twoJ : ℝ) + 1) / ((init.twoJ : ℝ) + 1))

/-- The intermediate state decays with nonnegative partial widths, one for each state, that add up to `w > 0`; spins are not
negative. -/
structure Decaying (init inter : Level) (pw : List (String × ℝ)) (w : ℝ) : Prop where
  widths : inter.widths = some pw
  nodup : (pw.map Prod.fst).Nodup
  nonneg : ∀ kv ∈ pw, 0 ≤ kv.2
  sum : (pw.map Prod.snd).sum = w
  pos : 0 < w
  spin : 0 ≤ init.twoJ ∧ 0 ≤ inter.twoJ

/-! ## Lemmas -/

theorem Decaying.width {init inter : Level} {pw : List (String × ℝ)} {w : ℝ} (h : Decaying init inter pw w) : inter.width = .ok w := by
  rw [width_eq h.widths h.nodup, h.sum]

theorem Decaying.le {init inter : Level} {pw : List (String × ℝ)} {w : ℝ} (h : Decaying init inter pw w) {key : String} {g : ℝ}
    (hg : (key, g) ∈ pw) : 0 ≤ g ∧ g ≤ w := by
  refine ⟨h.nonneg _ hg, ?_⟩
  rw [← h.sum]
  refine List.single_le_sum ?_ _ (List.mem_map.2 ⟨_, hg, rfl⟩)
  intro x hx
  obtain ⟨kv, hkv, rfl⟩ := List.mem_map.1 hx
  exact h.nonneg kv hkv

/-- Integrated cross section and limit. -/
theorem Decaying.ics {init inter : Level} {pw : List (String × ℝ)} {w : ℝ} (h : Decaying init inter pw w) {s : Shape} {k : PhysConst}
    {final : Option Level} {r : Reso} (hr : s.build k init inter final = .ok r) :
    r.er ≠ 0 ∧ 0 < unitarityLimit k init inter r.er ∧ ∃ g0, (init.Jpi, g0) ∈ pw ∧ 0 ≤ g0 ∧ g0 ≤ w ∧ 0 ≤ r.br ∧ r.br ≤ 1 ∧
      r.ics = unitarityLimit k init inter r.er * (Real.pi / 2) * (g0 * r.br) := by
  obtain ⟨pw', g0, hpw, hg0, hics, hn, hf⟩ := C23_formula s hr
  rw [h.widths] at hpw; cases hpw
  have her : r.er ≠ 0 := by
    obtain ⟨r0, d, ps, hr0, hd, rfl⟩ := build_inv hr
    exact (mkResonance_inv hr0).2.1
  have hk := k.hbarc_pos
  have h1 : (0 : ℝ) < (inter.twoJ : ℝ) + 1 := by
    have : (0 : ℝ) ≤ inter.twoJ := by exact_mod_cast h.spin.2
    linarith
  have h2 : (0 : ℝ) < (init.twoJ : ℝ) + 1 := by
    have : (0 : ℝ) ≤ init.twoJ := by exact_mod_cast h.spin.1
    linarith
  have hpi := Real.pi_pos
  have hbr : 0 ≤ r.br ∧ r.br ≤ 1 := by
    cases final with
    | none => rw [hn rfl]; exact ⟨zero_le_one, le_rfl⟩
    | some f =>
      obtain ⟨gf, w', hgf, hw', hb⟩ := hf f rfl
      rw [h.width] at hw'; cases hw'
      obtain ⟨a, b⟩ := h.le hgf
      rw [hb]
      exact ⟨div_nonneg a h.pos.le, (div_le_one h.pos).2 b⟩
  refine ⟨her, ?_, g0, hg0, (h.le hg0).1, (h.le hg0).2, hbr.1, hbr.2, ?_⟩
  · unfold unitarityLimit
    have : 0 < (2 * Real.pi * k.hbarc / r.er) ^ 2 := by positivity
    positivity
  · rw [hics]
    unfold unitarityLimit
    field_simp

theorem cauchyPdf_center (l s : ℝ) : cauchyPdf l s l = 1 / (Real.pi * s) := by simp [cauchyPdf]

theorem cauchyPdf_le_center (l E : ℝ) {s : ℝ} (hs : 0 < s) : cauchyPdf l s E ≤ 1 / (Real.pi * s) ∧
    (cauchyPdf l s E = 1 / (Real.pi * s) → E = l) := by
  have hp : 0 < Real.pi * s := by positivity
  unfold cauchyPdf
  constructor
  · refine one_div_le_one_div_of_le hp ?_
    nlinarith [sq_nonneg ((E - l) / s)]
  · intro he
    have : ((E - l) / s) ^ 2 = 0 := by
      rw [div_eq_div_iff (by positivity) hp.ne'] at he
      nlinarith
    have : (E - l) / s = 0 := by simpa using this
    rcases div_eq_zero_iff.1 this with h | h
    · linarith
    · exact absurd h hs.ne'

/-- If a density is at most `2 / (π w)`, the cross section is at most the limit times `g₀/w` times the branching ratio. -/
theorem below_limit {U g0 w b p : ℝ} (hU : 0 < U) (hg : 0 ≤ g0) (hgw : g0 ≤ w) (hw : 0 < w) (hb : 0 ≤ b) (hb1 : b ≤ 1)
    (hp : p ≤ 1 / (Real.pi * (0.5 * w))) : U * (Real.pi / 2) * (g0 * b) * p ≤ U * (g0 / w * b) ∧ U * (g0 / w * b) ≤ U := by
  have hpi := Real.pi_pos
  constructor
  · calc U * (Real.pi / 2) * (g0 * b) * p ≤ U * (Real.pi / 2) * (g0 * b) * (1 / (Real.pi * (0.5 * w))) :=
          mul_le_mul_of_nonneg_left hp (by positivity)
      _ = U * (g0 / w * b) := by field_simp; ring
  · have : g0 / w * b ≤ 1 := mul_le_one₀ ((div_le_one hw).2 hgw) hb hb1
    nlinarith

/-! ## C174 -/

/-- C174 for Breit-Wigner: the cross section of any channel, and of the excitation, is at most the limit. The limit is reached
exactly at the resonance energy of a state that decays to the initial state only. -/
theorem C174_breit_wigner {k : PhysConst} {init inter : Level} {final : Option Level} {r : Reso} {pw : List (String × ℝ)} {w : ℝ}
    (hr : mkBreitWigner k init inter final = .ok r) (h : Decaying init inter pw w) :
    ∃ σ, r.HasSigma σ ∧ ∀ E, σ E ≤ unitarityLimit k init inter r.er ∧
      (σ E = unitarityLimit k init inter r.er ↔ E = r.er ∧ (init.Jpi, w) ∈ pw ∧ r.br = 1) := by
  obtain ⟨-, hU, g0, hmem, hg, hgw, hb, hb1, hics⟩ := h.ics (s := .breitWigner) hr
  obtain ⟨r0, w', -, hw', hr'⟩ := mkBreitWigner_inv hr
  rw [h.width] at hw'; cases hw'
  have hs : 0 < 0.5 * w := by have := h.pos; positivity
  have hsig := (analytic_cauchy (r := r) (l := r.er) (s := 0.5 * w) (by rw [hr']) (by rw [hr']) hs).sigma
  refine ⟨_, hsig, fun E => ?_⟩
  obtain ⟨hle, heq⟩ := cauchyPdf_le_center r.er E hs
  obtain ⟨l1, l2⟩ := below_limit hU hg hgw h.pos hb hb1 hle
  rw [hics]
  refine ⟨l1.trans l2, ?_⟩
  constructor
  · intro he
    have h3 : g0 / w * r.br = 1 := by
      have : unitarityLimit k init inter r.er * (g0 / w * r.br) = unitarityLimit k init inter r.er :=
        le_antisymm l2 (he.symm.le.trans l1)
      exact mul_left_cancel₀ hU.ne' (by rw [this, mul_one])
    have hq : g0 / w ≤ 1 := (div_le_one h.pos).2 hgw
    have hq0 : 0 ≤ g0 / w := div_nonneg hg h.pos.le
    have hbr : r.br = 1 := le_antisymm hb1 (by nlinarith)
    have hgw1 : g0 / w = 1 := by rw [hbr, mul_one] at h3; exact h3
    have hg1 : g0 = w := by rw [div_eq_one_iff_eq h.pos.ne'] at hgw1; exact hgw1
    refine ⟨heq ?_, hg1 ▸ hmem, hbr⟩
    rw [hg1, hbr] at he
    have hpi := Real.pi_pos
    have hw := h.pos
    have hne : unitarityLimit k init inter r.er * (Real.pi / 2) * (w * 1) ≠ 0 := by positivity
    refine mul_left_cancel₀ hne ?_
    rw [he]
    field_simp
    norm_num
  · rintro ⟨rfl, hmw, hbr⟩
    have hg1 : g0 = w := by
      have h1 := lookup_of_mem h.nodup hmem
      rw [lookup_of_mem h.nodup hmw] at h1
      simpa using h1.symm
    have hpi := Real.pi_pos
    have hw := h.pos
    rw [cauchyPdf_center, hg1, hbr]
    field_simp
    norm_num

/-- C174 for Voigt: the cross section is at most the limit at every temperature. -/
theorem C174_voigt {k : PhysConst} {init inter : Level} {final : Option Level} {amu T : ℝ} {r : Reso} {pw : List (String × ℝ)} {w : ℝ}
    (hr : mkVoigt k init inter amu T final = .ok r) (ha : 0 < amu) (hT : 0 ≤ T) (hE : init.exc < inter.exc)
    (h : Decaying init inter pw w) : ∃ σ, r.HasSigma σ ∧ ∀ E, σ E ≤ unitarityLimit k init inter r.er := by
  obtain ⟨-, hU, g0, -, hg, hgw, hb, hb1, hics⟩ := h.ics (s := .voigt amu T) hr
  refine ⟨_, voigt_sigma hr ha hT hE h.width h.pos, fun E => ?_⟩
  have her : 0 < r.er := by rw [(mkVoigt_same hr hr).2.2]; linarith
  have hs : 0 ≤ dopplerWidth k amu T r.er / Real.sqrt 2 :=
    div_nonneg (mul_nonneg her.le (Real.sqrt_nonneg _)) (Real.sqrt_nonneg _)
  have hle := (coldVoigt_le r.er (half_pos h.pos) hs E).2
  rw [coldVoigt_zero, cauchyPdf_center, show w / 2 = 0.5 * w by ring] at hle
  rw [show w / 2 = 0.5 * w by ring, hics]
  obtain ⟨l1, l2⟩ := below_limit hU hg hgw h.pos hb hb1 hle
  exact l1.trans l2

/-- C174 for Gauss: the exact condition. The limit is exceeded somewhere if and only if the Doppler width is below `√π/2` times
the partial width to the initial state times the branching ratio. -/
theorem C174_gauss_iff {k : PhysConst} {init inter : Level} {final : Option Level} {amu T : ℝ} {r : Reso} {pw : List (String × ℝ)}
    {w g0 : ℝ} (hr : mkGauss k init inter amu T final = .ok r) (ha : 0 < amu) (hT : 0 < T) (hE : init.exc < inter.exc)
    (h : Decaying init inter pw w) (hg : (init.Jpi, g0) ∈ pw) :
    ∃ σ, r.HasSigma σ ∧ ((∃ E, unitarityLimit k init inter r.er < σ E) ↔
      dopplerWidth k amu T r.er < Real.sqrt Real.pi / 2 * (g0 * r.br)) := by
  obtain ⟨-, hU, g0', hmem, hg0, -, hb, -, hics⟩ := h.ics (s := .gauss amu T) hr
  have : g0' = g0 := by
    have h1 := lookup_of_mem h.nodup hmem
    rw [lookup_of_mem h.nodup hg] at h1
    simpa using h1.symm
  subst this
  obtain ⟨r0, hr0, -, hr'⟩ := mkGauss_inv hr
  have her0 : r.er = r0.er := by rw [hr']
  have her : 0 < r.er := by rw [her0, (mkResonance_inv hr0).1]; simp only [noRecoil]; linarith
  have hu := k.u_pos
  have hkB := k.kB_pos
  have hd : 0 < dopplerWidth k amu T r.er := by unfold dopplerWidth; positivity
  have hs : 0 < dopplerWidth k amu T r.er / Real.sqrt 2 := by positivity
  have hsig := (analytic_norm (r := r) (l := r.er) (s := dopplerWidth k amu T r.er / Real.sqrt 2) (by rw [hr']) (by rw [hr']) hs).sigma
  refine ⟨_, hsig, ?_⟩
  have hpi := Real.pi_pos
  set d := dopplerWidth k amu T r.er
  set U := unitarityLimit k init inter r.er
  have hpeak : normPdf r.er (d / Real.sqrt 2) r.er = 1 / (d * Real.sqrt Real.pi) := by
    unfold normPdf
    rw [sub_self, zero_div, Real.sqrt_mul (by norm_num : (0 : ℝ) ≤ 2)]
    norm_num
    field_simp
  have hval : r.ics * normPdf r.er (d / Real.sqrt 2) r.er = U * (Real.sqrt Real.pi / 2 * (g0' * r.br) / d) := by
    rw [hpeak, hics]
    have : Real.pi = Real.sqrt Real.pi * Real.sqrt Real.pi := (Real.mul_self_sqrt hpi.le).symm
    have h2 : 0 < Real.sqrt Real.pi := by positivity
    generalize Real.sqrt Real.pi = q at *
    rw [this]
    field_simp
  have hI : 0 ≤ r.ics := by rw [hics]; positivity
  have hiff : U < r.ics * normPdf r.er (d / Real.sqrt 2) r.er ↔ d < Real.sqrt Real.pi / 2 * (g0' * r.br) := by
    rw [hval, lt_mul_iff_one_lt_right hU, one_lt_div hd]
  rw [← hiff]
  constructor
  · rintro ⟨E, hE⟩
    exact hE.trans_le (mul_le_mul_of_nonneg_left ((norm_peaked r.er hs).le_peak E) hI)
  · intro hlt
    exact ⟨r.er, hlt⟩

/-- C174 is false of pseudo-Voigt: without thermal motion the maximum is twice that of Breit-Wigner, and it exceeds the limit if and
only if the share of the decays to the initial state, times the branching ratio, is above one half. -/
theorem C174_pseudo_voigt_cold {k : PhysConst} {init inter : Level} {final : Option Level} {amu : ℝ} {r : Reso} {pw : List (String × ℝ)}
    {w g0 : ℝ} (hr : mkPseudoVoigt k init inter amu 0 final = .ok r) (ha : 0 < amu) (h : Decaying init inter pw w)
    (hg : (init.Jpi, g0) ∈ pw) :
    ∃ x, r.call r.er = .ok (.fin x) ∧ x = 2 * (g0 / w * r.br) * unitarityLimit k init inter r.er ∧
      (unitarityLimit k init inter r.er < x ↔ 1 / 2 < g0 / w * r.br) := by
  obtain ⟨-, hU, g0', hmem, hg0, -, hb, -, hics⟩ := h.ics (s := .pseudoVoigt amu 0) hr
  have : g0' = g0 := by
    have h1 := lookup_of_mem h.nodup hmem
    rw [lookup_of_mem h.nodup hg] at h1
    simpa using h1.symm
  subst this
  obtain ⟨r0, d, ps, hr0, hd, hr'⟩ := build_inv (s := .pseudoVoigt amu 0) hr
  simp only [Shape.distOf, h.width, getDopplerWidth_ok k ha.ne', Bind.bind, Except.bind, Except.ok.injEq, Prod.mk.injEq] at hd
  obtain ⟨hd1, hd2⟩ := hd
  have hD : dopplerWidth k amu 0 r0.er = 0 := by simp [dopplerWidth]
  rw [hD] at hd1
  have hok : PV.Ok w 0 := ⟨h.pos.le, le_rfl, Or.inl h.pos⟩
  have hsig := pv_sigma (r := r) hok (by rw [hr', ← hd1]) (by rw [hr', ← hd2])
  have hpdf := (C32_partial r.er).2 w h.pos r.er
  have hw := h.pos
  have hpi := Real.pi_pos
  have hq : (mkPV r.er w 0).pdfR r.er = 4 / (Real.pi * w) := by
    have h1 := hpdf.1
    have hw4 : 0 < w / 4 := by positivity
    simp only [PV.toDist, PV.pdf, hok.valid, if_true, cauchyDist, scipyDist, locScale, Bind.bind, Except.bind, hw4,
      Except.ok.injEq, Fl.fin.injEq, cauchyPdf_center] at h1
    rw [h1]
    field_simp
  refine ⟨_, hsig r.er, ?_, ?_⟩
  · show r.ics * (mkPV r.er w 0).pdfR r.er = _
    rw [hq, hics]
    field_simp
    ring
  · show _ < r.ics * (mkPV r.er w 0).pdfR r.er ↔ _
    rw [hq, hics]
    have e : unitarityLimit k init inter r.er * (Real.pi / 2) * (g0' * r.br) * (4 / (Real.pi * w)) =
        unitarityLimit k init inter r.er * (2 * (g0' / w * r.br)) := by
      field_simp
      ring
    rw [e, lt_mul_iff_one_lt_right hU]
    constructor <;> intro h <;> linarith

/-- C174 for pseudo-Voigt, the part that holds: at most twice the limit, at every temperature. -/
theorem C174_partial {k : PhysConst} {init inter : Level} {final : Option Level} {amu T : ℝ} {r : Reso} {pw : List (String × ℝ)} {w : ℝ}
    (hr : mkPseudoVoigt k init inter amu T final = .ok r) (ha : 0 < amu) (hE : init.exc < inter.exc)
    (h : Decaying init inter pw w) : ∃ σ, r.HasSigma σ ∧ ∀ E, σ E ≤ 2 * unitarityLimit k init inter r.er := by
  obtain ⟨-, hU, g0, -, hg, hgw, hb, hb1, hics⟩ := h.ics (s := .pseudoVoigt amu T) hr
  obtain ⟨r0, d, ps, hr0, hd, hr'⟩ := build_inv (s := .pseudoVoigt amu T) hr
  simp only [Shape.distOf, h.width, getDopplerWidth_ok k ha.ne', Bind.bind, Except.bind, Except.ok.injEq, Prod.mk.injEq] at hd
  obtain ⟨hd1, hd2⟩ := hd
  have her : 0 < r0.er := by rw [(mkResonance_inv hr0).1]; simp only [Shape.recoil, noRecoil]; linarith
  have hD : 0 ≤ dopplerWidth k amu T r0.er := mul_nonneg her.le (Real.sqrt_nonneg _)
  have hok : PV.Ok w (dopplerWidth k amu T r0.er) := ⟨h.pos.le, hD, Or.inl h.pos⟩
  generalize dopplerWidth k amu T r0.er = D at *
  have hsig := pv_sigma (r := r) hok (by rw [hr', ← hd1]) (by rw [hr', ← hd2])
  refine ⟨_, hsig, fun E => ?_⟩
  have hw := h.pos
  have hpi := Real.pi_pos
  have hG := hok.gamma_pos (er := r.er)
  have hGw : w ≤ (mkPV r.er w D).bigGamma := pvGamma_ge_right hok.g0 h.pos.le
  obtain ⟨he0, he1⟩ := hok.eta_bounds (er := r.er)
  obtain ⟨e1, e2⟩ := PV.scales r.er w D
  obtain ⟨v1, v2⟩ := hok.valid (er := r.er)
  have hc : cauchyPdf r.er (mkPV r.er w D).cauchyScale E ≤ 4 / (Real.pi * w) := by
    refine (cauchyPdf_le_center r.er E v2).1.trans ?_
    rw [e2, div_le_div_iff₀ (by positivity) (by positivity)]
    nlinarith
  have hn : normPdf r.er (mkPV r.er w D).normScale E ≤ 4 / (Real.pi * w) := by
    refine ((norm_peaked r.er v1).le_peak E).trans ?_
    obtain ⟨-, b2⟩ := PV.sqrt_bounds
    have k1 : 2.5 ≤ Real.sqrt (2 * Real.pi) := Real.le_sqrt_of_sq_le (by have := Real.pi_gt_d2; norm_num at *; linarith)
    have b0 : 0 < Real.sqrt (2 * Real.log 2) := by have := Real.log_pos (by norm_num : (1 : ℝ) < 2); positivity
    rw [e1]
    unfold normPdf
    rw [sub_self, zero_div]
    generalize Real.sqrt (2 * Real.pi) = K at *
    generalize Real.sqrt (2 * Real.log 2) = S at *
    generalize (mkPV r.er w D).bigGamma = G at *
    norm_num only [neg_zero, zero_div, Real.exp_zero, ne_eq, OfNat.ofNat_ne_zero, not_false_eq_true, zero_pow]
    have hK : 0 < K := by linarith
    rw [div_le_div_iff₀ (by positivity) (by positivity), one_mul]
    have hpi2 := Real.pi_lt_d2
    rw [show 4 * (G / (2 * S) * K) = 2 * G * K / S by field_simp; ring, le_div_iff₀ b0]
    have h1 : Real.pi * w ≤ 3.15 * G := by nlinarith
    have h2 : Real.pi * w * S ≤ 3.15 * G * 1.4 := mul_le_mul h1 b2 b0.le (by positivity)
    nlinarith
  have hp : (mkPV r.er w D).pdfR E ≤ 4 / (Real.pi * w) := by
    unfold PV.pdfR
    have a1 := mul_le_mul_of_nonneg_left hn (sub_nonneg.2 he1)
    have a2 := mul_le_mul_of_nonneg_left hc he0
    show (1 - (mkPV r.er w D).eta) * normPdf r.er _ E + (mkPV r.er w D).eta * cauchyPdf r.er _ E ≤ _
    refine (add_le_add a1 a2).trans (le_of_eq ?_)
    ring
  have hp2 : (mkPV r.er w D).pdfR E / 2 ≤ 1 / (Real.pi * (0.5 * w)) := by
    have : 1 / (Real.pi * (0.5 * w)) = 4 / (Real.pi * w) / 2 := by field_simp; norm_num
    rw [this]
    linarith
  obtain ⟨l1, l2⟩ := below_limit hU hg hgw h.pos hb hb1 hp2
  rw [hics]
  linarith

theorem exMid_decaying : Decaying exGround exMid [("3/2^-_1", 1e-5)] 1e-5 :=
  ⟨rfl, by simp, by norm_num, by simp, by norm_num, by simp [exGround, groundState], by simp [exMid, state]⟩

/-- C174 is false of the code, concretely: a state at 2 MeV with a width of 10 eV that decays to the ground state only, of a nucleus
with 11 atomic mass units. The Gauss cross section exceeds the limit at 293 K, the pseudo-Voigt cross section is twice the limit at
0 K. -/
theorem C174_refuted : (∃ r x, mkGauss exConst exGround exMid 11 293 none = .ok r ∧ r.call r.er = .ok (.fin x) ∧
      unitarityLimit exConst exGround exMid r.er < x) ∧
    ∃ r x, mkPseudoVoigt exConst exGround exMid 11 0 none = .ok r ∧ r.call r.er = .ok (.fin x) ∧
      x = 2 * unitarityLimit exConst exGround exMid r.er ∧ unitarityLimit exConst exGround exMid r.er < x := by
  obtain ⟨r0, h0, he, -⟩ := exMid_resonance
  have h11 : (11 : ℝ) ≠ 0 := by norm_num
  have hexc : exGround.exc < exMid.exc := by norm_num [exGround, exMid, groundState, state]
  have hmem : (exGround.Jpi, (1e-5 : ℝ)) ∈ [("3/2^-_1", (1e-5 : ℝ))] := by simp [exGround, groundState]
  constructor
  · obtain ⟨r, hr⟩ : ∃ r, mkGauss exConst exGround exMid 11 293 none = .ok r :=
      ⟨_, by simp only [mkGauss, h0, getDopplerWidth_ok exConst h11, Bind.bind, Except.bind]; rfl⟩
    have her : r.er = 2 := by
      obtain ⟨r1, h1, -, rfl⟩ := mkGauss_inv hr
      rw [h0] at h1; cases h1
      exact he
    have hbr : r.br = 1 := (C23_formula (.gauss 11 293) hr).choose_spec.choose_spec.2.2.2.1 rfl
    obtain ⟨σ, hσ, hiff⟩ := C174_gauss_iff hr (by norm_num) (by norm_num) hexc exMid_decaying hmem
    obtain ⟨E, hE⟩ := hiff.2 (by
      rw [her, hbr]
      have hpi : 1.7 ≤ Real.sqrt Real.pi := Real.le_sqrt_of_sq_le (by have := Real.pi_gt_d2; norm_num at *; linarith)
      have hd : dopplerWidth exConst 11 293 2 < 5e-6 := by
        unfold dopplerWidth
        have : Real.sqrt (2 * exConst.kB * 1e-6 * 293 / (11 * exConst.u)) < 2.5e-6 := by
          rw [Real.sqrt_lt' (by norm_num)]
          norm_num [exConst]
        linarith
      norm_num at *
      linarith)
    refine ⟨r, σ r.er, hr, hσ r.er, hE.trans_le ?_⟩
    obtain ⟨τ, hτ, -, hpk, -⟩ := shape_sigma (r := r) (Or.inr (Or.inl ⟨exConst, exGround, exMid, 11, 293, none, hr, by norm_num, by norm_num, hexc⟩))
      (C23_pos (.gauss 11 293) hr (by simp [exGround, groundState]) (by simp [exMid, state]) fun pw hpw => by
        rw [exMid_decaying.widths] at hpw; cases hpw
        exact ⟨by simp, by norm_num⟩)
    rw [sigma_unique hσ hτ]
    exact hpk.le_peak E
  · obtain ⟨r, hr⟩ : ∃ r, mkPseudoVoigt exConst exGround exMid 11 0 none = .ok r :=
      ⟨_, by simp only [mkPseudoVoigt, h0, exMid_width, getDopplerWidth_ok exConst h11, Bind.bind, Except.bind]; rfl⟩
    have hbr : r.br = 1 := (C23_formula (.pseudoVoigt 11 0) hr).choose_spec.choose_spec.2.2.2.1 rfl
    obtain ⟨x, hx, hval, hiff⟩ := C174_pseudo_voigt_cold hr (by norm_num) exMid_decaying hmem
    have h1 : (1e-5 : ℝ) / 1e-5 * r.br = 1 := by rw [hbr]; norm_num
    rw [h1] at hval hiff
    exact ⟨r, x, hr, hx, by rw [hval]; ring, hiff.2 (by norm_num)⟩

/-- The hypotheses of the theorems can be met. -/
example : ∃ r v, mkBreitWigner exConst exGround exMid none = .ok r ∧ mkVoigt exConst exGround exMid 11 293 none = .ok v ∧
    Decaying exGround exMid [("3/2^-_1", 1e-5)] 1e-5 ∧ exGround.exc < exMid.exc := by
  obtain ⟨r0, h0, he, -⟩ := exMid_resonance
  have h11 : (11 : ℝ) ≠ 0 := by norm_num
  exact ⟨_, _, by simp only [mkBreitWigner, h0, exMid_width, Bind.bind, Except.bind]; rfl,
    by simp only [mkVoigt, mkPseudoVoigt, h0, exMid_width, getDopplerWidth_ok exConst h11, Bind.bind, Except.bind]; rfl, exMid_decaying,
    by norm_num [exGround, exMid, groundState, state]⟩

end Ries
