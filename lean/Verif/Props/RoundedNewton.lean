import Verif.Lemmas.RoundedNewton
import Verif.Lemmas.PseudoVoigt
import Verif.Lemmas.RnIdem
import Verif.Props.PseudoVoigt

/-! # C119, C120: quantiles of the pseudo-Voigt distribution, one-element arrays and rounding -/

namespace Ries

/-! ## C119 -/

/-- C119 is false for versions of scipy in which `RootResults` is no container: for an array that contains only the median, and for
every other single quantile for which the search succeeds, a `TypeError` is raised, although the number is accepted. -/
theorem C119_refuted (er w d : ℝ) (hw : 0 ≤ w) (hd : 0 ≤ d) (hne : 0 < w ∨ 0 < d) :
    (mkPV er w d).ppfOne false (1 / 2) = .error .typeError ∧ (mkPV er w d).ppfScalar (1 / 2) = (.fin er, false) ∧
    ∀ q x, (mkPV er w d).ppfScalar q = (x, false) → (mkPV er w d).ppfOne false q = .error .typeError := by
  have hv : (mkPV er w d).Valid := (⟨hw, hd, hne⟩ : PV.Ok w d).valid
  have key : ∀ q x, (mkPV er w d).ppfScalar q = (x, false) → (mkPV er w d).ppfOne false q = .error .typeError := by
    intro q x hx
    unfold PV.ppfScalar at hx
    unfold PV.ppfOne
    rw [if_pos hv] at hx ⊢
    cases h : newtonScalar (mkPV er w d).cdfR (mkPV er w d).pdfR q 50 (mkPV er w d).er with
    | error e => simp [h] at hx
    | ok y => rfl
  exact ⟨key _ _ (C33_median er w d hw hd hne), C33_median er w d hw hd hne, key⟩

example : (0 : ℝ) ≤ 4 ∧ (0 : ℝ) ≤ 1 ∧ ((0 : ℝ) < 4 ∨ (0 : ℝ) < 1) := by norm_num

/-- C119, the part that holds: where `RootResults` is a dictionary, a one-element array gives the one-element array of the value for
the number, with the same warning, for all parameters and quantiles; and in every version this is so when the search fails and the
fallback is used. Missing: older versions, see `C119_refuted`. -/
theorem C119_partial (d : PV) (q : ℝ) :
    d.ppfOne true q = .ok ⟨some [(d.ppfScalar q).1], (d.ppfScalar q).2⟩ ∧
    ((d.ppfScalar q).2 = true → ∀ b, d.ppfOne b q = .ok ⟨some [(d.ppfScalar q).1], true⟩) := by
  unfold PV.ppfOne PV.ppfScalar
  by_cases hv : d.Valid
  · simp only [if_pos hv]
    cases newtonScalar d.cdfR d.pdfR q 50 d.er <;> simp
  · simp [if_neg hv]

/-! ## C120 -/

variable {fl Fc pc : ℝ → ℝ} {u η : ℝ}

theorem noise_of {er w d : ℝ} (hw : 0 ≤ w) (hd : 0 ≤ d) (hne : 0 < w ∨ 0 < d) (hfl : Rounding u fl) (hu0 : 0 ≤ u)
    (hu1 : u ≤ 1 / 1000) (hη0 : 0 ≤ η) (hη1 : η ≤ 1 / 1000) {F p : ℝ → ℝ} (hF : ∀ x, (mkPV er w d).cdf x = .fin (F x))
    (hp : ∀ x, (mkPV er w d).pdf x = .fin (p x)) (hFc : ∀ x, |Fc x - F x| ≤ η) (hpc : ∀ x, |pc x - p x| ≤ η * p er) :
    NewtonNoise fl Fc pc F p u η (p er) := by
  have hok : PV.Ok w d := ⟨hw, hd, hne⟩
  have eF : F = (mkPV er w d).cdfR := by
    funext x
    have := hF x
    rw [PV.cdf, if_pos hok.valid] at this
    exact (Fl.fin.inj this).symm
  have ep : p = (mkPV er w d).pdfR := by
    funext x
    have := hp x
    rw [PV.pdf, if_pos hok.valid] at this
    exact (Fl.fin.inj this).symm
  subst eF ep
  exact ⟨hfl, hu0, hu1, hη0, hη1, hok.good, fun x => hok.peaked.le_peak x, hFc, hpc⟩

/-- C120: a quantile found by the search in floating point (relative error at most `u` per operation of the search, the computed
distribution function off by at most `η`, the computed density off by at most `η` times its maximum) is correct up to the tolerance
of the search and the resolution of floating-point energies: the probability below the returned energy `x` differs from the quantile by
at most `p(E_r) (2.02 · 1.48e-8 + 1.01 u |x|) + η`. -/
theorem C120_number (er w d : ℝ) (hw : 0 ≤ w) (hd : 0 ≤ d) (hne : 0 < w ∨ 0 < d) (hfl : Rounding u fl) (hu0 : 0 ≤ u)
    (hu1 : u ≤ 1 / 1000) (hη0 : 0 ≤ η) (hη1 : η ≤ 1 / 1000) {F p : ℝ → ℝ} (hF : ∀ x, (mkPV er w d).cdf x = .fin (F x))
    (hp : ∀ x, (mkPV er w d).pdf x = .fin (p x)) (hFc : ∀ x, |Fc x - F x| ≤ η) (hpc : ∀ x, |pc x - p x| ≤ η * p er) (mix : ℝ → Fl)
    (q : ℝ) :
    (∃ x, PV.ppfScalarR fl Fc pc mix er q = (.fin x, false) ∧ |F x - q| ≤ p er * (2.02 * 1.48e-8 + 1.01 * u * |x|) + η) ∨
    PV.ppfScalarR fl Fc pc mix er q = (mix q, true) := by
  have h : NewtonNoise fl Fc pc F p u η (p er) := noise_of hw hd hne hfl hu0 hu1 hη0 hη1 hF hp hFc hpc
  unfold PV.ppfScalarR
  cases e : newtonScalarR fl Fc pc q 50 er with
  | error r => exact .inr rfl
  | ok x => exact .inl ⟨x, rfl, h.scalar q 50 er x e⟩

/-- C120: the same for arrays of quantiles: without a warning every entry is that accurate, with a warning all are fallback values. -/
theorem C120_array (er w d : ℝ) (hw : 0 ≤ w) (hd : 0 ≤ d) (hne : 0 < w ∨ 0 < d) (hfl : Rounding u fl) (hu0 : 0 ≤ u)
    (hu1 : u ≤ 1 / 1000) (hη0 : 0 ≤ η) (hη1 : η ≤ 1 / 1000) {F p : ℝ → ℝ} (hF : ∀ x, (mkPV er w d).cdf x = .fin (F x))
    (hp : ∀ x, (mkPV er w d).pdf x = .fin (p x)) (hFc : ∀ x, |Fc x - F x| ≤ η) (hpc : ∀ x, |pc x - p x| ≤ η * p er) (mix : ℝ → Fl)
    (qs : List ℝ) (vs : List Fl) (warned : Bool) (hr : PV.ppfArrayR fl Fc pc mix er qs = ⟨some vs, warned⟩) :
    (warned = false → ∃ xs : List ℝ, vs = xs.map .fin ∧
      List.Forall₂ (fun q x => |F x - q| ≤ p er * (2.02 * 1.48e-8 + 1.01 * u * |x|) + η) qs xs) ∧
    (warned = true → vs = qs.map mix) := by
  have h : NewtonNoise fl Fc pc F p u η (p er) := noise_of hw hd hne hfl hu0 hu1 hη0 hη1 hF hp hFc hpc
  have hgood := h.loop 50 (qs.map fun q => ⟨q, er, true, true⟩) (by
    intro e he hf
    obtain ⟨q, -, rfl⟩ := List.mem_map.1 he
    cases hf)
  unfold PV.ppfArrayR newtonArrayR at hr
  generalize newtonLoopR fl Fc pc 50 (qs.map fun q => ⟨q, er, true, true⟩) = st at hr hgood
  obtain ⟨g1, g2⟩ := hgood
  have g1' : st.map (·.q) = qs := by rw [g1, List.map_map]; simp [Function.comp_def]
  have key : (if false ∈ st.map (fun e => !e.failed) then PV.PpfResult.mk none false
      else ⟨some ((st.map (·.x)).map .fin), false⟩) = ⟨some vs, warned⟩ →
      warned = false ∧ ∃ xs : List ℝ, vs = xs.map .fin ∧
      List.Forall₂ (fun q x => |F x - q| ≤ p er * (2.02 * 1.48e-8 + 1.01 * u * |x|) + η) qs xs := by
    intro h
    split_ifs at h with hf
    · simp at h
    simp only [PV.PpfResult.mk.injEq, Option.some.injEq] at h
    obtain ⟨rfl, rfl⟩ := h
    refine ⟨rfl, st.map (·.x), rfl, ?_⟩
    rw [← g1', List.forall₂_map_left_iff, List.forall₂_map_right_iff, List.forall₂_same]
    intro e he
    refine g2 e he ?_
    by_contra hne
    apply hf
    rw [List.mem_map]
    exact ⟨e, he, by simp at hne; simp [hne]⟩
  dsimp only at hr
  split_ifs at hr with h1 h2
  · obtain ⟨rfl, hx⟩ := key hr
    exact ⟨fun _ => hx, by simp⟩
  · simp only [PV.PpfResult.mk.injEq, Option.some.injEq] at hr
    obtain ⟨rfl, rfl⟩ := hr
    exact ⟨by simp, fun _ => rfl⟩
  · obtain ⟨rfl, hx⟩ := key hr
    exact ⟨fun _ => hx, by simp⟩

/-- C120: without rounding errors the search is the one of C33. -/
theorem C120_exact (er w d : ℝ) (hw : 0 ≤ w) (hd : 0 ≤ d) (hne : 0 < w ∨ 0 < d) (qs : List ℝ) (q : ℝ) :
    PV.ppfArrayR id (mkPV er w d).cdfR (mkPV er w d).pdfR (fun q => (mkPV er w d).ppfMix (.fin q)) er qs = (mkPV er w d).ppfArray qs ∧
    PV.ppfScalarR id (mkPV er w d).cdfR (mkPV er w d).pdfR (fun q => (mkPV er w d).ppfMix (.fin q)) er q = (mkPV er w d).ppfScalar q := by
  have hv : (mkPV er w d).Valid := (⟨hw, hd, hne⟩ : PV.Ok w d).valid
  have her : (mkPV er w d).er = er := rfl
  constructor
  · unfold PV.ppfArrayR PV.ppfArray newtonArrayR newtonArray
    simp only [newtonLoopR_id, if_pos hv, her]
    rfl
  · unfold PV.ppfScalarR PV.ppfScalar
    simp only [newtonScalarR_id, if_pos hv, her]
    rfl

/-- In double precision, with correctly rounded distribution function and density, the median is found. -/
example (er : ℝ) (mix : ℝ → Fl) : ∃ F p : ℝ → ℝ, (∀ x, (mkPV er 4 1).cdf x = .fin (F x)) ∧ (∀ x, (mkPV er 4 1).pdf x = .fin (p x)) ∧
    Rounding (1 / 2 ^ 53) KN.rn ∧ (∀ x, |KN.rn (F x) - F x| ≤ 1 / 2 ^ 53) ∧ (∀ x, |KN.rn (p x) - p x| ≤ 1 / 2 ^ 53 * p er) ∧
    PV.ppfScalarR KN.rn (fun x => KN.rn (F x)) (fun x => KN.rn (p x)) mix er (1 / 2) = (.fin er, false) := by
  have hok : PV.Ok 4 1 := ⟨by norm_num, by norm_num, .inl (by norm_num)⟩
  have hF := hok.good (er := er)
  refine ⟨_, _, fun x => by simp [PV.cdf, hok.valid]; rfl, fun x => by simp [PV.pdf, hok.valid]; rfl, KN.rn_rounding, fun x => ?_,
    fun x => ?_, ?_⟩
  · refine (KN.rn_rounding _).trans ?_
    rw [abs_of_pos (hF.gt_zero x)]
    have := hF.lt_one x
    norm_num
    linarith
  · refine (KN.rn_rounding _).trans ?_
    rw [abs_of_pos (hF.pos x)]
    exact mul_le_mul_of_nonneg_left (hok.peaked.le_peak x) (by norm_num)
  · have h1 : KN.rn ((mkPV er 4 1).cdfR er) = 1 / 2 := by
      have h2 := KN.rn_scale 1 (-1)
      have h3 : KN.rn 1 = 1 := by exact_mod_cast KN.rn_exact (n := 1) (by norm_num)
      rw [hok.half]
      rw [h3] at h2
      norm_num at h2 ⊢
      exact h2
    have h0 : KN.rn 0 = 0 := by exact_mod_cast KN.rn_exact (n := 0) (by norm_num)
    unfold PV.ppfScalarR newtonScalarR
    rw [if_pos]
    show KN.rn (KN.rn ((mkPV er 4 1).cdfR er) - 1 / 2) = 0
    rw [h1, sub_self, h0]

end Ries
