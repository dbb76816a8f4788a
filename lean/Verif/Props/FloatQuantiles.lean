import Verif.Lemmas.NoisyCentre
import Verif.Props.FloatSearch

/-! # C187 for all quantiles -/

namespace Ries

variable {fl Fc pc F p : ℝ → ℝ} {u η ε : ℝ}

/-- C187 without a condition on the distance to the median: if the widths add up to at least 1e-7 MeV, the search succeeds for every
nonempty array of quantiles between `ε` and `1 - ε`, the returned energies lie within `Γ / ε` of the centre, and the probability below
each is the quantile up to 3.9e-8 MeV over the larger width, plus the error `η` of the computed distribution function. -/
theorem C187_every_array (er w d : ℝ) (hw : 0 ≤ w) (hd : 0 ≤ d) (hne : 0 < w ∨ 0 < d) {Γ : ℝ}
    (hΓ : Γ = 2 * Real.sqrt (Real.log 2) * d + w) (hF : ∀ x, (mkPV er w d).cdf x = .fin (F x))
    (hp : ∀ x, (mkPV er w d).pdf x = .fin (p x)) (hε : 0 < ε) (hfloat : FloatPV fl Fc pc F p er u η (Γ / ε))
    (hn : u * (|er| + 2 * Γ / ε) + 3 * (η + u) * Γ ≤ 5e-11 * ε ^ 2) (hG : Γ ≤ 1e20 * ε ^ 4) (hΓ7 : 1e-7 ≤ Γ) (mix : ℝ → Fl)
    (qs : List ℝ) (hqs : qs ≠ []) (hq : ∀ q ∈ qs, ε ≤ q ∧ q ≤ 1 - ε) :
    ∃ xs : List ℝ, PV.ppfArrayR fl Fc pc mix er qs = ⟨some (xs.map .fin), false⟩ ∧
      List.Forall₂ (fun q x => |x - er| ≤ Γ / ε ∧ |F x - q| ≤ 3.9e-8 / max w (2 * Real.sqrt (Real.log 2) * d) + η) qs xs := by
  subst hΓ
  have hok : PV.Ok w d := ⟨hw, hd, hne⟩
  have hS := hfloat.search hok hF hp
  have htol := fl_tol_ge hfloat.rounding hfloat.u1
  have hε1 : ε ≤ 1 / 2 := by
    obtain ⟨q, hq'⟩ := List.exists_mem_of_ne_nil _ hqs
    obtain ⟨q0, q1⟩ := hq q hq'
    linarith
  have ep : p er = (mkPV er w d).pdfR er := by
    have := hp er
    rw [PV.pdf, if_pos hok.valid] at this
    exact (Fl.fin.inj this).symm
  have hstart : ∀ q ∈ qs, Tracked fl Fc er w d u η ε 0 q er := fun q hq' =>
    tracked_start hok hfloat.u0 hfloat.η0 hε hn (hq q hq').1 (hq q hq').2
  have hconv : ∀ e ∈ newtonLoopR fl Fc pc 50 (qs.map fun q => ⟨q, er, true, true⟩), e.failed = false := by
    refine newtonLoopR_converges (Tracked fl Fc er w d u η ε) 49
      (fun k q x ht => (hS.tracked hok hε hε1 hΓ7 hn hG ht).1) (fun k q x ht => (hS.tracked hok hε hε1 hΓ7 hn hG ht).2.1)
      (fun q x ht => ?_) 49 0 _ rfl (by simpa using hqs) ?_
    · have := ((hS.tracked hok hε hε1 hΓ7 hn hG ht).2.2 rfl).1
      refine this.trans_lt (lt_of_lt_of_le ?_ htol)
      unfold newtonTol
      norm_num
    · intro e he
      obtain ⟨q, hq', rfl⟩ := List.mem_map.1 he
      exact hstart q hq'
  obtain ⟨xs, hx, hacc⟩ := ppfArrayR_of_converged er w d hw hd hne hF hp hfloat mix qs hqs hconv
  have hst := newtonLoopR_states (Tracked fl Fc er w d u η ε)
    (fun k q x ht => (hS.tracked hok hε hε1 hΓ7 hn hG ht).1) (fun k q x ht => (hS.tracked hok hε hε1 hΓ7 hn hG ht).2.1)
    50 0 qs (qs.map fun q => ⟨q, er, true, true⟩) (by
      rw [List.forall₂_map_right_iff, List.forall₂_same]
      exact fun q hq' => ⟨rfl, hstart q hq'⟩)
  have hxs : List.Forall₂ (fun q x => |x - er| ≤ (2 * Real.sqrt (Real.log 2) * d + w) / ε) qs xs := by
    rw [ppfArrayR_inv hx, List.forall₂_map_right_iff]
    exact hst.imp fun q e he => he.2.choose_spec.near hok hfloat.u0 hfloat.η0 hε hε1 hΓ7 hn
  refine ⟨xs, hx, ?_⟩
  rw [List.forall₂_iff_get] at hacc hxs ⊢
  refine ⟨hacc.1, fun i h1 h2 => ⟨hxs.2 i h1 h2, (hacc.2 i h1 h2).trans ?_⟩⟩
  rw [ep]
  linarith [hok.float_error hfloat.u0 hfloat.η0 hε hε1 hn (hxs.2 i h1 h2)]

/-- C187 without a condition on the distance to the median, for a single quantile. -/
theorem C187_every_number (er w d : ℝ) (hw : 0 ≤ w) (hd : 0 ≤ d) (hne : 0 < w ∨ 0 < d) {Γ : ℝ}
    (hΓ : Γ = 2 * Real.sqrt (Real.log 2) * d + w) (hF : ∀ x, (mkPV er w d).cdf x = .fin (F x))
    (hp : ∀ x, (mkPV er w d).pdf x = .fin (p x)) (hε : 0 < ε) (hfloat : FloatPV fl Fc pc F p er u η (Γ / ε))
    (hn : u * (|er| + 2 * Γ / ε) + 3 * (η + u) * Γ ≤ 5e-11 * ε ^ 2) (hG : Γ ≤ 1e20 * ε ^ 4) (hΓ7 : 1e-7 ≤ Γ) (mix : ℝ → Fl)
    (q : ℝ) (h0 : ε ≤ q) (h1 : q ≤ 1 - ε) :
    ∃ x : ℝ, PV.ppfScalarR fl Fc pc mix er q = (.fin x, false) ∧ |x - er| ≤ Γ / ε ∧
      |F x - q| ≤ 3.9e-8 / max w (2 * Real.sqrt (Real.log 2) * d) + η := by
  subst hΓ
  have hok : PV.Ok w d := ⟨hw, hd, hne⟩
  have hS := hfloat.search hok hF hp
  have htol := fl_tol_ge hfloat.rounding hfloat.u1
  have hε1 : ε ≤ 1 / 2 := by linarith
  obtain ⟨x, hx⟩ : ∃ x : ℝ, newtonScalarR fl Fc pc q 50 er = .ok x := by
    refine newtonScalarR_converges (Tracked fl Fc er w d u η ε) 49 q
      (fun k x ht => (hS.tracked hok hε hε1 hΓ7 hn hG ht).1) (fun k x ht => (hS.tracked hok hε hε1 hΓ7 hn hG ht).2.1)
      (fun x ht => ?_) 49 0 er rfl (tracked_start hok hfloat.u0 hfloat.η0 hε hn h0 h1)
    have h1 := ((hS.tracked hok hε hε1 hΓ7 hn hG ht).2.2 rfl).2
    refine le_trans ?_ htol
    generalize fl (x - fl (fl (Fc x - q) / pc x)) - x = δ at *
    have h2 := hfloat.rounding δ
    have h3 := abs_add_le (fl δ - δ) δ
    rw [sub_add_cancel] at h3
    have h4 : u * |δ| ≤ 1 / 1000 * 1.4e-8 := mul_le_mul hfloat.u1 h1 (abs_nonneg _) (by norm_num)
    unfold newtonTol
    norm_num at h1 h4 ⊢
    linarith
  obtain ⟨k, hT⟩ := newtonScalarR_state (Tracked fl Fc er w d u η ε) q
    (fun k x ht => (hS.tracked hok hε hε1 hΓ7 hn hG ht).2.1) 50 0 er x (tracked_start hok hfloat.u0 hfloat.η0 hε hn h0 h1) hx
  have hnear := hT.near hok hfloat.u0 hfloat.η0 hε hε1 hΓ7 hn
  obtain ⟨y, hy, hacc⟩ := ppfScalarR_of_converged er w d hw hd hne hF hp hfloat mix q hx
  have hyx : y = x := by
    unfold PV.ppfScalarR at hy
    rw [hx] at hy
    simpa using hy.symm
  subst hyx
  refine ⟨y, hy, hnear, hacc.trans ?_⟩
  have ep : p er = (mkPV er w d).pdfR er := by
    have := hp er
    rw [PV.pdf, if_pos hok.valid] at this
    exact (Fl.fin.inj this).symm
  rw [ep]
  linarith [hok.float_error hfloat.u0 hfloat.η0 hε hε1 hn hnear]

/-- Double precision with correctly rounded functions: a level at 2.5 MeV with a natural width of 1e-6 MeV and a Doppler width of
1e-5 MeV, quantiles 0.01, the number after 0.5, and 0.99. -/
example (mix : ℝ → Fl) : ∃ (F p : ℝ → ℝ) (xs : List ℝ), (∀ x, (mkPV 2.5 1e-6 1e-5).cdf x = .fin (F x)) ∧
    PV.ppfArrayR KN.rn (fun x => KN.rn (F x)) (fun x => KN.rn (p x)) mix 2.5 [0.01, 1 / 2 + 1 / 2 ^ 53, 0.99] = ⟨some (xs.map .fin), false⟩ := by
  have hok : PV.Ok 1e-6 1e-5 := ⟨by norm_num, by norm_num, .inl (by norm_num)⟩
  have hF := hok.good (er := 2.5)
  have hs1 : Real.sqrt (Real.log 2) ≤ 1 := by
    rw [Real.sqrt_le_one]
    linarith [Real.log_two_lt_d9]
  have hs0 : 0.5 ≤ Real.sqrt (Real.log 2) := by
    rw [Real.le_sqrt (by norm_num) (by linarith [Real.log_two_gt_d9])]
    norm_num
    linarith [Real.log_two_gt_d9]
  have hrel : ∀ y : ℝ, 0 < y → |KN.rn y - y| ≤ 1 / 2 ^ 53 * y := by
    intro y hy
    have := KN.rn_rounding y
    rwa [abs_of_pos hy] at this
  have hfl : FloatPV KN.rn (fun x => KN.rn ((mkPV 2.5 1e-6 1e-5).cdfR x)) (fun x => KN.rn ((mkPV 2.5 1e-6 1e-5).pdfR x))
      (mkPV 2.5 1e-6 1e-5).cdfR (mkPV 2.5 1e-6 1e-5).pdfR 2.5 (1 / 2 ^ 53) (1 / 2 ^ 53)
      ((2 * Real.sqrt (Real.log 2) * 1e-5 + 1e-6) / 0.01) := by
    refine ⟨KN.rn_rounding, by norm_num, by norm_num, by norm_num, by norm_num, fun x => ?_, fun x => ?_, fun x _ => hrel _ (hF.pos x)⟩
    · refine (hrel _ (hF.gt_zero x)).trans ?_
      have := hF.lt_one x
      norm_num
      linarith
    · exact (hrel _ (hF.pos x)).trans (mul_le_mul_of_nonneg_left (hok.peaked.le_peak x) (by norm_num))
  obtain ⟨xs, hx, -⟩ := C187_every_array 2.5 1e-6 1e-5 (by norm_num) (by norm_num) (.inl (by norm_num)) rfl
    (F := (mkPV 2.5 1e-6 1e-5).cdfR) (p := (mkPV 2.5 1e-6 1e-5).pdfR) (fun x => by rw [PV.cdf, if_pos hok.valid])
    (fun x => by rw [PV.pdf, if_pos hok.valid]) (ε := 0.01) (by norm_num) hfl
    (by rw [abs_of_pos (by norm_num)]; norm_num; linarith) (by norm_num; linarith) (by norm_num at *; linarith) mix
    [0.01, 1 / 2 + 1 / 2 ^ 53, 0.99] (by simp) (by
      intro q hq
      simp only [List.mem_cons, List.not_mem_nil, or_false] at hq
      rcases hq with rfl | rfl | rfl <;> norm_num)
  exact ⟨_, _, xs, fun x => by rw [PV.cdf, if_pos hok.valid], hx⟩

end Ries
