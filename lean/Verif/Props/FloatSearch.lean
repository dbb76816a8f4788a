import Verif.Lemmas.NoisySearchPV
import Verif.Props.RoundedNewton

/-! # C187: the search for quantiles of the pseudo-Voigt distribution converges in floating point -/

namespace Ries

variable {fl Fc pc F p : ℝ → ℝ} {u η ε : ℝ}

/-- if the loop ends with all components converged, `ppf` returns numbers with the accuracy of C120 -/
theorem ppfArrayR_of_converged (er w d : ℝ) (hw : 0 ≤ w) (hd : 0 ≤ d) (hne : 0 < w ∨ 0 < d) {L : ℝ}
    (hF : ∀ x, (mkPV er w d).cdf x = .fin (F x)) (hp : ∀ x, (mkPV er w d).pdf x = .fin (p x))
    (hfloat : FloatPV fl Fc pc F p er u η L) (mix : ℝ → Fl) (qs : List ℝ) (hqs : qs ≠ [])
    (hconv : ∀ e ∈ newtonLoopR fl Fc pc 50 (qs.map fun q => ⟨q, er, true, true⟩), e.failed = false) :
    ∃ xs : List ℝ, PV.ppfArrayR fl Fc pc mix er qs = ⟨some (xs.map .fin), false⟩ ∧
      List.Forall₂ (fun q x => |F x - q| ≤ p er * (2.02 * 1.48e-8 + 1.01 * u * |x|) + η) qs xs := by
  have hres : ∃ xs : List ℝ, PV.ppfArrayR fl Fc pc mix er qs = ⟨some (xs.map .fin), false⟩ := by
    have hN : NewtonNoise fl Fc pc F p u η (p er) :=
      noise_of hw hd hne hfloat.rounding hfloat.u0 hfloat.u1 hfloat.η0 hfloat.η1 hF hp hfloat.cdf hfloat.pdf
    have hl := (hN.loop 50 (qs.map fun q => ⟨q, er, true, true⟩) (by
      intro e he hf
      obtain ⟨q, -, rfl⟩ := List.mem_map.1 he
      cases hf)).1
    unfold PV.ppfArrayR newtonArrayR
    simp only
    generalize newtonLoopR fl Fc pc 50 (qs.map fun q => ⟨q, er, true, true⟩) = st at *
    have hany : st.any (fun e => !e.nz && e.failed) = false := by
      rw [List.any_eq_false]
      intro e he
      simp [hconv e he]
    have hall : ¬ st.all (·.failed) = true := by
      intro hall
      rw [List.all_eq_true] at hall
      cases st with
      | nil =>
        apply hqs
        simpa using hl.symm
      | cons e st => have := hall e (by simp); rw [hconv e (by simp)] at this; cases this
    have hf : false ∉ st.map (fun e => !e.failed) := by
      intro h
      obtain ⟨e, he, hf⟩ := List.mem_map.1 h
      rw [hconv e he] at hf
      simp at hf
    rw [hany]
    simp only [Bool.false_eq_true, if_false, hall, hf]
    exact ⟨_, rfl⟩
  obtain ⟨xs, hx⟩ := hres
  obtain ⟨ys, e, hacc⟩ := (C120_array er w d hw hd hne hfloat.rounding hfloat.u0 hfloat.u1 hfloat.η0 hfloat.η1 hF hp hfloat.cdf
    hfloat.pdf mix qs _ _ hx).1 rfl
  exact ⟨ys, by rw [hx, e], hacc⟩

/-- the same for a single quantile -/
theorem ppfScalarR_of_converged (er w d : ℝ) (hw : 0 ≤ w) (hd : 0 ≤ d) (hne : 0 < w ∨ 0 < d) {L : ℝ}
    (hF : ∀ x, (mkPV er w d).cdf x = .fin (F x)) (hp : ∀ x, (mkPV er w d).pdf x = .fin (p x))
    (hfloat : FloatPV fl Fc pc F p er u η L) (mix : ℝ → Fl) (q : ℝ) {x : ℝ} (hx : newtonScalarR fl Fc pc q 50 er = .ok x) :
    ∃ x : ℝ, PV.ppfScalarR fl Fc pc mix er q = (.fin x, false) ∧
      |F x - q| ≤ p er * (2.02 * 1.48e-8 + 1.01 * u * |x|) + η := by
  have hx' : PV.ppfScalarR fl Fc pc mix er q = (.fin x, false) := by
    unfold PV.ppfScalarR
    rw [hx]
  rcases C120_number er w d hw hd hne hfloat.rounding hfloat.u0 hfloat.u1 hfloat.η0 hfloat.η1 hF hp hfloat.cdf hfloat.pdf mix q with
    ⟨y, hy, hacc⟩ | hmix
  · exact ⟨y, hy, hacc⟩
  · rw [hx'] at hmix
    simp at hmix

/-- C187: in floating point, the search for a nonempty array of quantiles between `ε` and `1 - ε` succeeds without a warning, and the
probability below each returned energy is the quantile up to the bound of C120, if the rounding errors are small compared to the
tolerance of the search: with `Γ` the sum of the two widths, `u (|E_r| + 2 Γ / ε) + 3 (η + u) Γ ≤ 5e-11 ε²`. -/
theorem C187_array (er w d : ℝ) (hw : 0 ≤ w) (hd : 0 ≤ d) (hne : 0 < w ∨ 0 < d) {Γ : ℝ} (hΓ : Γ = 2 * Real.sqrt (Real.log 2) * d + w)
    (hF : ∀ x, (mkPV er w d).cdf x = .fin (F x)) (hp : ∀ x, (mkPV er w d).pdf x = .fin (p x)) (hε : 0 < ε)
    (hfloat : FloatPV fl Fc pc F p er u η (Γ / ε)) (hn : u * (|er| + 2 * Γ / ε) + 3 * (η + u) * Γ ≤ 5e-11 * ε ^ 2)
    (hG : Γ ≤ 1e20 * ε ^ 4) (mix : ℝ → Fl) (qs : List ℝ) (hqs : qs ≠ []) (hq : ∀ q ∈ qs, Searchable fl Fc er Γ ε q) :
    ∃ xs : List ℝ, PV.ppfArrayR fl Fc pc mix er qs = ⟨some (xs.map .fin), false⟩ ∧
      List.Forall₂ (fun q x => |F x - q| ≤ p er * (2.02 * 1.48e-8 + 1.01 * u * |x|) + η) qs xs := by
  subst hΓ
  have hok : PV.Ok w d := ⟨hw, hd, hne⟩
  have hS := hfloat.search hok hF hp
  obtain ⟨W0, W1⟩ := hok.trackW_le hfloat.u0 hfloat.η0 hε hn
  have hB := hok.trackB_le hfloat.u0 hfloat.η0 hε hn hG
  have hG0 := hok.gamma_pos (er := er)
  have htol := fl_tol_ge hfloat.rounding hfloat.u1
  have hconv : ∀ e ∈ newtonLoopR fl Fc pc 50 (qs.map fun q => ⟨q, er, true, true⟩), e.failed = false := by
    by_cases hall : ∀ q ∈ qs, q = 1 / 2 ∧ Fc er = 1 / 2 ∧ fl er = er
    · have hf0 : fl 0 = 0 := by simpa using hfloat.rounding 0
      unfold newtonLoopR
      rw [if_pos]
      · intro e he
        obtain ⟨e0, -, rfl⟩ := List.mem_map.1 he
        rfl
      · intro e he
        obtain ⟨q, hq', rfl⟩ := List.mem_map.1 he
        obtain ⟨h1, h2, -⟩ := hall q hq'
        simp only [h1, h2, sub_self, hf0]
    · have hΓ2 : 2e-9 ≤ 2 * Real.sqrt (Real.log 2) * d + w := by
        push Not at hall
        obtain ⟨q, hq', hnot⟩ := hall
        obtain ⟨q0, q1, hm | hfar⟩ := hq q hq'
        · exact absurd hm.2.2 (hnot hm.1 hm.2.1)
        · have h1 : |q - 1 / 2| ≤ 1 / 2 := abs_le.2 ⟨by linarith, by linarith⟩
          have h2 := hok.gamma_pos (er := er)
          have h3 := hok.gamma_le (er := er)
          nlinarith
      have hε1 : ε ≤ 1 / 2 := by
        obtain ⟨q, hq'⟩ := List.exists_mem_of_ne_nil _ hqs
        obtain ⟨q0, q1, -⟩ := hq q hq'
        linarith
      have hWL : trackW er u η ((2 * Real.sqrt (Real.log 2) * d + w) / ε) (0.465 * ε ^ 2 / (mkPV er w d).bigGamma)
          (1.28 / (mkPV er w d).bigGamma) ≤ (2 * Real.sqrt (Real.log 2) * d + w) / ε := by
        refine W1.trans ?_
        rw [le_div_iff₀ hε]
        nlinarith
      refine newtonLoopR_converges (OnTrack fl Fc (mkPV er w d).cdfR (mkPV er w d).pdfR er u η
        ((2 * Real.sqrt (Real.log 2) * d + w) / ε) (0.465 * ε ^ 2 / (mkPV er w d).bigGamma) (1.28 / (mkPV er w d).bigGamma)) 49
        (fun k q x ht => (hS.track hok.peaked hWL W0 (by positivity) (by positivity) ht).1)
        (fun k q x ht => (hS.track hok.peaked hWL W0 (by positivity) (by positivity) ht).2.2.2)
        (fun q x ht => ?_) 49 0 _ rfl (by simpa using hqs) ?_
      · have := (hS.track hok.peaked hWL W0 (by positivity) (by positivity) ht).2.1
        refine (this.trans hB).trans_lt (lt_of_lt_of_le ?_ htol)
        unfold newtonTol
        norm_num
      · intro e he
        obtain ⟨q, hq', rfl⟩ := List.mem_map.1 he
        exact hok.track hfloat.u0 hfloat.η0 hε hn (hq q hq')
  exact ppfArrayR_of_converged er w d hw hd hne hF hp hfloat mix qs hqs hconv

/-- C187 for a single quantile. -/
theorem C187_number (er w d : ℝ) (hw : 0 ≤ w) (hd : 0 ≤ d) (hne : 0 < w ∨ 0 < d) {Γ : ℝ} (hΓ : Γ = 2 * Real.sqrt (Real.log 2) * d + w)
    (hF : ∀ x, (mkPV er w d).cdf x = .fin (F x)) (hp : ∀ x, (mkPV er w d).pdf x = .fin (p x)) (hε : 0 < ε)
    (hfloat : FloatPV fl Fc pc F p er u η (Γ / ε)) (hn : u * (|er| + 2 * Γ / ε) + 3 * (η + u) * Γ ≤ 5e-11 * ε ^ 2)
    (hG : Γ ≤ 1e20 * ε ^ 4) (mix : ℝ → Fl) (q : ℝ) (hq : Searchable fl Fc er Γ ε q) :
    ∃ x : ℝ, PV.ppfScalarR fl Fc pc mix er q = (.fin x, false) ∧
      |F x - q| ≤ p er * (2.02 * 1.48e-8 + 1.01 * u * |x|) + η := by
  have hΓ' := hΓ
  subst hΓ
  have hok : PV.Ok w d := ⟨hw, hd, hne⟩
  have hS := hfloat.search hok hF hp
  obtain ⟨W0, W1⟩ := hok.trackW_le hfloat.u0 hfloat.η0 hε hn
  have hB := hok.trackB_le hfloat.u0 hfloat.η0 hε hn hG
  have hG0 := hok.gamma_pos (er := er)
  have htol := fl_tol_ge hfloat.rounding hfloat.u1
  have hres : ∃ x : ℝ, newtonScalarR fl Fc pc q 50 er = .ok x := by
    have hq' := hq
    obtain ⟨q0, q1, hm | hfar⟩ := hq'
    · have hf0 : fl 0 = 0 := by simpa using hfloat.rounding 0
      refine ⟨er, ?_⟩
      unfold newtonScalarR
      rw [if_pos]
      rw [hm.1, hm.2.1, sub_self, hf0]
    · have hΓ2 : 2e-9 ≤ 2 * Real.sqrt (Real.log 2) * d + w := by
        have h1 : |q - 1 / 2| ≤ 1 / 2 := abs_le.2 ⟨by linarith, by linarith⟩
        have h2 := hok.gamma_pos (er := er)
        have h3 := hok.gamma_le (er := er)
        nlinarith
      have hWL : trackW er u η ((2 * Real.sqrt (Real.log 2) * d + w) / ε) (0.465 * ε ^ 2 / (mkPV er w d).bigGamma)
          (1.28 / (mkPV er w d).bigGamma) ≤ (2 * Real.sqrt (Real.log 2) * d + w) / ε := by
        refine W1.trans ?_
        rw [le_div_iff₀ hε]
        nlinarith
      refine newtonScalarR_converges (OnTrack fl Fc (mkPV er w d).cdfR (mkPV er w d).pdfR er u η
        ((2 * Real.sqrt (Real.log 2) * d + w) / ε) (0.465 * ε ^ 2 / (mkPV er w d).bigGamma) (1.28 / (mkPV er w d).bigGamma)) 49 q
        (fun k x ht => (hS.track hok.peaked hWL W0 (by positivity) (by positivity) ht).1)
        (fun k x ht => (hS.track hok.peaked hWL W0 (by positivity) (by positivity) ht).2.2.2)
        (fun x ht => ?_) 49 0 er rfl (hok.track hfloat.u0 hfloat.η0 hε hn hq)
      have h1 := ((hS.track hok.peaked hWL W0 (by positivity) (by positivity) ht).2.2.1).trans hB
      refine le_trans ?_ htol
      generalize fl (x - fl (fl (Fc x - q) / pc x)) - x = δ at *
      have h2 := hfloat.rounding δ
      have h3 := abs_add_le (fl δ - δ) δ
      rw [sub_add_cancel] at h3
      have h4 : u * |δ| ≤ 1 / 1000 * 1.4e-8 := mul_le_mul hfloat.u1 h1 (abs_nonneg _) (by norm_num)
      unfold newtonTol
      norm_num at h1 h4 ⊢
      linarith
  obtain ⟨x, hx⟩ := hres
  exact ppfScalarR_of_converged er w d hw hd hne hF hp hfloat mix q hx

/-- Double precision with correctly rounded functions: a level at 2.5 MeV with a natural width of 1e-6 MeV and a Doppler width of
1e-5 MeV, quantiles 0.01, 0.5 and 0.99. -/
example (mix : ℝ → Fl) : ∃ (F p : ℝ → ℝ) (xs : List ℝ), (∀ x, (mkPV 2.5 1e-6 1e-5).cdf x = .fin (F x)) ∧
    PV.ppfArrayR KN.rn (fun x => KN.rn (F x)) (fun x => KN.rn (p x)) mix 2.5 [0.01, 1 / 2, 0.99] = ⟨some (xs.map .fin), false⟩ := by
  have hok : PV.Ok 1e-6 1e-5 := ⟨by norm_num, by norm_num, .inl (by norm_num)⟩
  have hF := hok.good (er := 2.5)
  have hs1 : Real.sqrt (Real.log 2) ≤ 1 := by
    rw [Real.sqrt_le_one]
    linarith [Real.log_two_lt_d9]
  have hs0 : 0.5 ≤ Real.sqrt (Real.log 2) := by
    rw [Real.le_sqrt (by norm_num) (by linarith [Real.log_two_gt_d9])]
    norm_num
    linarith [Real.log_two_gt_d9]
  have hrel : ∀ y : ℝ, 0 < y → |KN.rn y - y| ≤ 1 / 2 ^ 53 * y := by
    intro y hy
    have := KN.rn_rounding y
    rwa [abs_of_pos hy] at this
  have hfl : FloatPV KN.rn (fun x => KN.rn ((mkPV 2.5 1e-6 1e-5).cdfR x)) (fun x => KN.rn ((mkPV 2.5 1e-6 1e-5).pdfR x))
      (mkPV 2.5 1e-6 1e-5).cdfR (mkPV 2.5 1e-6 1e-5).pdfR 2.5 (1 / 2 ^ 53) (1 / 2 ^ 53)
      ((2 * Real.sqrt (Real.log 2) * 1e-5 + 1e-6) / 0.01) := by
    refine ⟨KN.rn_rounding, by norm_num, by norm_num, by norm_num, by norm_num, fun x => ?_, fun x => ?_, fun x _ => hrel _ (hF.pos x)⟩
    · refine (hrel _ (hF.gt_zero x)).trans ?_
      have := hF.lt_one x
      norm_num
      linarith
    · exact (hrel _ (hF.pos x)).trans (mul_le_mul_of_nonneg_left (hok.peaked.le_peak x) (by norm_num))
  have h12 : KN.rn ((mkPV 2.5 1e-6 1e-5).cdfR 2.5) = 1 / 2 := by
    have h2 := KN.rn_scale 1 (-1)
    have h3 : KN.rn 1 = 1 := by exact_mod_cast KN.rn_exact (n := 1) (by norm_num)
    rw [hok.half]
    rw [h3] at h2
    norm_num at h2 ⊢
    exact h2
  have h25 : KN.rn 2.5 = 2.5 := by
    have h2 := KN.rn_scale 5 (-1)
    have h3 : KN.rn 5 = 5 := by exact_mod_cast KN.rn_exact (n := 5) (by norm_num)
    rw [h3] at h2
    norm_num at h2 ⊢
    exact h2
  obtain ⟨xs, hx, -⟩ := C187_array 2.5 1e-6 1e-5 (by norm_num) (by norm_num) (.inl (by norm_num)) rfl
    (F := (mkPV 2.5 1e-6 1e-5).cdfR) (p := (mkPV 2.5 1e-6 1e-5).pdfR) (fun x => by rw [PV.cdf, if_pos hok.valid])
    (fun x => by rw [PV.pdf, if_pos hok.valid]) (ε := 0.01) (by norm_num) hfl
    (by rw [abs_of_pos (by norm_num)]; norm_num; linarith) (by norm_num; linarith) mix [0.01, 1 / 2, 0.99] (by simp) (by
      intro q hq
      simp only [List.mem_cons, List.not_mem_nil, or_false] at hq
      rcases hq with rfl | rfl | rfl
      · refine ⟨by norm_num, by norm_num, .inr ?_⟩
        rw [abs_of_nonpos (by norm_num)]; norm_num; linarith
      · exact ⟨by norm_num, by norm_num, .inl ⟨rfl, h12, h25⟩⟩
      · refine ⟨by norm_num, by norm_num, .inr ?_⟩
        rw [abs_of_nonneg (by norm_num)]; norm_num; linarith)
  exact ⟨_, _, xs, fun x => by rw [PV.cdf, if_pos hok.valid], hx⟩

end Ries
