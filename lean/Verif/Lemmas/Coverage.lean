import Verif.Lemmas.NewtonConv
import Verif.Lemmas.Shapes
import Verif.Props.PseudoVoigt
import Verif.Props.Grid

/-! # Lemmas on coverage intervals and grids of pseudo-Voigt distributions -/

open MeasureTheory

namespace Ries

theorem IsPseudoVoigtOf.inv {r : Reso} {w d : ℝ} (h : IsPseudoVoigtOf r w d) :
    PV.Ok w d ∧ r.dist = (mkPV r.er w d).toDist ∧ r.params = [] := by
  obtain ⟨k, init, inter, amu, T, final, hr, ha, hT, hE, hw, hdw, hw0, hne⟩ := h
  obtain ⟨r0, dd, ps, hr0, hd, rfl⟩ := build_inv (s := .pseudoVoigt amu T) hr
  have her : r0.er = inter.exc - init.exc := (mkResonance_inv hr0).1
  have hpos : 0 < r0.er := by rw [her]; linarith
  rw [getDopplerWidth_ok k ha.ne'] at hdw
  simp only [Except.ok.injEq] at hdw
  simp only [Shape.distOf, hw, getDopplerWidth_ok k ha.ne', bind, Except.bind, Except.ok.injEq, Prod.mk.injEq] at hd
  obtain ⟨rfl, rfl⟩ := hd
  subst hdw
  refine ⟨⟨hw0, dopplerWidth_nonneg k amu T hpos.le, ?_⟩, rfl, rfl⟩
  rcases hne with h | h
  · exact Or.inl h
  · exact Or.inr (dopplerWidth_pos k ha h hpos)

theorem IsVoigtOf.inv {r : Reso} {w d : ℝ} (h : IsVoigtOf r w d) :
    PV.Ok w d ∧ r.dist = (mkPV r.er w d).toSemiDist ∧ r.params = [] := by
  obtain ⟨k, init, inter, amu, T, final, hr, ha, hT, hE, hw, hdw, hw0, hne⟩ := h
  obtain ⟨r0, dd, ps, hr0, hd, rfl⟩ := build_inv (s := .voigt amu T) hr
  have her : r0.er = inter.exc - init.exc := (mkResonance_inv hr0).1
  have hpos : 0 < r0.er := by rw [her]; linarith
  rw [getDopplerWidth_ok k ha.ne'] at hdw
  simp only [Except.ok.injEq] at hdw
  simp only [Shape.distOf, hw, getDopplerWidth_ok k ha.ne', bind, Except.bind, Except.ok.injEq, Prod.mk.injEq] at hd
  obtain ⟨rfl, rfl⟩ := hd
  subst hdw
  refine ⟨⟨hw0, dopplerWidth_nonneg k amu T hpos.le, ?_⟩, rfl, rfl⟩
  rcases hne with h | h
  · exact Or.inl h
  · exact Or.inr (dopplerWidth_pos k ha h hpos)

/-- position and accuracy of a converged value -/
def AtQuantile (D : PV) (er q x : ℝ) : Prop :=
  |D.cdfR x - q| ≤ 1.9e-8 / D.bigGamma ∧ (1 / 2 ≤ q → er ≤ x ∧ D.cdfR x ≤ q) ∧ (q ≤ 1 / 2 → x ≤ er ∧ q ≤ D.cdfR x)

variable {er w d : ℝ}

theorem PV.Ok.converged (h : PV.Ok w d) {qs : List ℝ} {vs : List Fl} (hv : (mkPV er w d).ppfArray qs = ⟨some vs, false⟩) :
    ∃ xs : List ℝ, vs = xs.map .fin ∧ List.Forall₂ (AtQuantile (mkPV er w d) er) qs xs ∧
      (qs.Pairwise (· ≤ ·) → xs.Pairwise (· ≤ ·)) := by
  obtain ⟨xs, F, p, h1, h2, -, h4, h5⟩ := (C33_array er w d h.w0 h.d0 h.ne qs vs false hv).1 rfl
  obtain ⟨xs', F', h1', h2', h4'⟩ := C71_partial er w d h.w0 h.d0 h.ne qs vs hv
  have hF : F = (mkPV er w d).cdfR := by
    funext x
    have := h2 x
    simpa [PV.cdf, h.valid] using this.symm
  have hF' : F' = (mkPV er w d).cdfR := by
    funext x
    have := h2' x
    simpa [PV.cdf, h.valid] using this.symm
  subst hF hF'
  have hxs : xs = xs' := by
    rw [h1] at h1'
    exact List.map_injective_iff.2 (fun a b h => by simpa using h) h1'
  subst hxs
  refine ⟨xs, h1, ?_, h5⟩
  rw [List.forall₂_iff_get] at h4 h4' ⊢
  refine ⟨h4.1, fun i hi hi' => ⟨h4'.2 i hi hi', (h4.2 i hi hi').2⟩⟩

theorem PV.Ok.fallback_value (h : PV.Ok w d) {q : ℝ} (h0 : 0 < q) (h1 : q < 1) :
    ∃ a b, (mkPV er w d).ppfMix (.fin q) = .fin ((1 - (mkPV er w d).eta) * a + (mkPV er w d).eta * b) ∧
      normCdf er (mkPV er w d).normScale a = q ∧ cauchyCdf er (mkPV er w d).cauchyScale b = q :=
  C33_fallback er w d h.w0 h.d0 h.ne h0 h1

/-- The two ends of a coverage interval. -/
theorem PV.Ok.two (h : PV.Ok w d) {q : ℝ} (h0 : 0 < q) (h1 : q ≤ 1 / 2) :
    ∃ lo hi : ℝ, lo + hi = 2 * er ∧ lo ≤ er ∧
      ((mkPV er w d).ppfArray [q, 1 - q] = ⟨some [.fin lo, .fin hi], false⟩ ∧
          AtQuantile (mkPV er w d) er q lo ∧ AtQuantile (mkPV er w d) er (1 - q) hi ∨
        (mkPV er w d).ppfArray [q, 1 - q] = ⟨some [.fin lo, .fin hi], true⟩ ∧
          ∃ a b, lo = (1 - (mkPV er w d).eta) * a + (mkPV er w d).eta * b ∧
            normCdf er (mkPV er w d).normScale a = q ∧ cauchyCdf er (mkPV er w d).cauchyScale b = q) := by
  have her : (mkPV er w d).er = er := rfl
  obtain ⟨vs, hv, hl⟩ := C34_partial er w d h.w0 h.d0 h.ne q [q, 1 - q] (by simp)
  rcases hr : (mkPV er w d).ppfArray [q, 1 - q] with ⟨vs', b⟩
  rw [hr] at hv
  simp only at hv
  subst hv
  cases b with
  | true =>
    have e := (C33_array er w d h.w0 h.d0 h.ne _ _ _ hr).2 rfl
    simp only [List.map_cons, List.map_nil] at e
    obtain ⟨a, b, e1, ha, hb⟩ := h.fallback_value (er := er) h0 (by linarith : q < 1)
    obtain ⟨a', b', e1', ha', hb'⟩ := h.fallback_value (er := er) (by linarith : 0 < 1 - q) (by linarith : 1 - q < 1)
    have hn := norm_good er (h.normScale_pos (er := er))
    have hc := cauchy_good er (h.cauchyScale_pos (er := er))
    have hnp := norm_peaked er (h.normScale_pos (er := er))
    have hcp := cauchy_peaked er (h.cauchyScale_pos (er := er))
    have ea : a' = 2 * er - a := hn.strictMono.injective (by rw [hn.reflect hnp, ha, ha'])
    have eb : b' = 2 * er - b := hc.strictMono.injective (by rw [hc.reflect hcp, hb, hb'])
    have la : a ≤ er := hn.strictMono.le_iff_le.1 (by rw [ha, hn.half_of_symm er hnp.symm]; exact h1)
    have lb : b ≤ er := hc.strictMono.le_iff_le.1 (by rw [hb, hc.half_of_symm er hcp.symm]; exact h1)
    have hη := h.eta_bounds (er := er)
    refine ⟨_, _, ?_, ?_, Or.inr ⟨by rw [e, e1, e1'], a, b, rfl, ha, hb⟩⟩
    · rw [ea, eb]; ring
    · have := mul_le_mul_of_nonneg_left la (by linarith [hη.2] : 0 ≤ 1 - (mkPV er w d).eta)
      have := mul_le_mul_of_nonneg_left lb hη.1
      linarith
  | false =>
    obtain ⟨xs, e, hxs, -⟩ := h.converged hr
    obtain ⟨lo, hi, rfl⟩ : ∃ lo hi, xs = [lo, hi] := by
      have := hxs.length_eq
      match xs, this with
      | [lo, hi], _ => exact ⟨lo, hi, rfl⟩
    simp only [List.forall₂_cons, List.forall₂_nil_left_iff, and_true] at hxs
    refine ⟨lo, hi, ?_, (hxs.1.2.2 h1).1, Or.inl ⟨by rw [e]; rfl, hxs.1, hxs.2⟩⟩
    -- symmetry
    obtain ⟨m1, y, b, m2⟩ := newtonLoop_mirror (h.good (er := er)) h.peaked (q := q) (qs := [q, 1 - q]) (by simp) 50
    unfold PV.ppfArray newtonArray at hr
    rw [if_pos h.valid, her] at hr
    simp only at hr
    generalize newtonLoop (mkPV er w d).cdfR (mkPV er w d).pdfR 50 ([q, 1 - q].map fun q => ⟨q, er, true, true⟩) = st at *
    have hst : st.map (·.x) = [lo, hi] := by
      rw [e] at hr
      split_ifs at hr with c1 c2
      · simp only at hr
        split_ifs at hr
        · simp at hr
        simp only [PV.PpfResult.mk.injEq, Option.some.injEq, and_true] at hr
        exact List.map_injective_iff.2 (fun a b h => by simpa using h) hr
      · simp at hr
      · simp only at hr
        split_ifs at hr
        · simp at hr
        simp only [PV.PpfResult.mk.injEq, Option.some.injEq, and_true] at hr
        exact List.map_injective_iff.2 (fun a b h => by simpa using h) hr
    match st, m1, hst, m2 with
    | [e1, e2], m1, hst, m2 =>
      simp only [List.map_cons, List.map_nil, List.cons.injEq, and_true] at m1 hst
      obtain ⟨-, -, a1⟩ := m2 e1 (by simp)
      obtain ⟨-, -, a2⟩ := m2 e2 (by simp)
      have hdone : (e1.x = y ∧ e2.x = 2 * er - y) ∨ (q = 1 / 2) ∨ False := by
        rcases a1 with ⟨-, a1⟩ | ⟨hq1, a1⟩
        · rcases a2 with ⟨hq2, -⟩ | ⟨-, a2⟩
          · right; left; rw [m1.2] at hq2; linarith
          · exact Or.inl ⟨a1, a2⟩
        · right; left; rw [m1.1] at hq1; linarith
      rcases hdone with ⟨d1, d2⟩ | hq | hf
      · rw [← hst.1, ← hst.2, d1, d2]; ring
      · subst hq
        have l1 := hxs.1.2.1 le_rfl
        have l2 := hxs.1.2.2 le_rfl
        have l3 := hxs.2.2.1 (by norm_num)
        have l4 := hxs.2.2.2 (by norm_num)
        linarith
      · exact hf.elim

/-- Coverage intervals of resonances with the quantile function of a pseudo-Voigt distribution. -/
theorem pv_coverage {r : Reso} (h : PV.Ok w d) (hppf : r.dist.ppf = (mkPV r.er w d).toDist.ppf)
    (hcdf : r.dist.cdf = (mkPV r.er w d).toDist.cdf) (hp : r.params = []) {c : ℝ} (h0 : 0 ≤ c) (h1 : c < 1) :
    ∃ (ci : Reso.Cov) (lo hi : ℝ), r.coverageInterval c = .ok ci ∧ ci.lo = .fin lo ∧ ci.hi = .fin hi ∧ lo + hi = 2 * r.er ∧
      lo ≤ r.er ∧
      (AtQuantile (mkPV r.er w d) r.er ((1 - c) / 2) lo ∧ AtQuantile (mkPV r.er w d) r.er ((1 + c) / 2) hi ∨
        ((mkPV r.er w d).ppfArray [(1 - c) / 2, (1 + c) / 2]).warned = true ∧
        ∃ a b, lo = (1 - (mkPV r.er w d).eta) * a + (mkPV r.er w d).eta * b ∧
            normCdf r.er (mkPV r.er w d).normScale a = (1 - c) / 2 ∧
            cauchyCdf r.er (mkPV r.er w d).cauchyScale b = (1 - c) / 2) := by
  obtain ⟨lo, hi, hs, hle, hcase⟩ := h.two (er := r.er) (q := (1 - c) / 2) (by linarith) (by linarith)
  have e0 : 1 - (1 - c) / 2 = (1 + c) / 2 := by ring
  rw [e0] at hcase
  have hval : ((mkPV r.er w d).ppfArray [(1 - c) / 2, (1 + c) / 2]).values = some [.fin lo, .fin hi] := by
    rcases hcase with ⟨e, -⟩ | ⟨e, -⟩ <;> rw [e]
  have e : r.dist.ppf r.params [.fin (0.5 * (1 - c)), .fin (0.5 * (1 + c))] = .ok (some [.fin lo, .fin hi]) := by
    have e1 : 0.5 * (1 - c) = (1 - c) / 2 := by ring
    have e2 : 0.5 * (1 + c) = (1 + c) / 2 := by ring
    rw [hppf, hp, ← hval, e1, e2]
    simp [PV.toDist, PV.finList]
  obtain ⟨ci, hci, l1, l2⟩ : ∃ ci, r.coverageInterval c = .ok ci ∧ ci.lo = .fin lo ∧ ci.hi = .fin hi := by
    unfold Reso.coverageInterval
    simp only [e, Bind.bind, Except.bind, hcdf]
    by_cases hn : (Fl.fin lo).isNeg
    · simp [hn, PV.toDist]
    · simp [hn]
  refine ⟨ci, lo, hi, hci, l1, l2, hs, hle, ?_⟩
  rcases hcase with ⟨-, q1, q2⟩ | ⟨e, x⟩
  · exact Or.inl ⟨q1, q2⟩
  · exact Or.inr ⟨by rw [e], x⟩

theorem PV.Ok.error_le (h : PV.Ok w d) :
    1.9e-8 / (mkPV er w d).bigGamma ≤ 1.9e-8 / max w (2 * Real.sqrt (Real.log 2) * d) := by
  have hs := sqrt_log_two_pos
  refine div_le_div_of_nonneg_left (by norm_num) ?_ ?_
  · rcases h.ne with hw | hd
    · exact lt_max_of_lt_left hw
    · exact lt_max_of_lt_right (by positivity)
  · exact max_le (pvGamma_ge_right h.g0 h.w0) (pvGamma_ge_left h.g0 h.w0)

/-- the quantiles of a grid -/
noncomputable def gridQ (a b : ℝ) (m : ℕ) : List ℝ := (List.range (m + 2)).map fun i : ℕ => a + i * ((b - a) / (m + 1))

theorem finList_map (qs : List ℝ) : PV.finList (qs.map .fin) = some qs := by
  induction qs with
  | nil => rfl
  | cons q qs ih => simp [PV.finList, ih]

theorem pv_ppf_linspace (D : PV) (a b : ℝ) (m : ℕ) :
    D.toDist.ppf [] ((List.range (m + 2)).map fun i : ℕ => Fl.fin (a + i * ((b - a) / (m + 1))))
      = .ok (D.ppfArray (gridQ a b m)).values := by
  have : ((List.range (m + 2)).map fun i : ℕ => Fl.fin (a + i * ((b - a) / (m + 1)))) = (gridQ a b m).map .fin := by
    simp [gridQ, Function.comp_def]
  rw [this]
  simp only [PV.toDist, if_true, finList_map]

theorem gridQ_sorted {a b : ℝ} (hab : a ≤ b) (m : ℕ) : (gridQ a b m).Pairwise (· ≤ ·) := by
  unfold gridQ
  rw [List.pairwise_map]
  refine (List.pairwise_lt_range).imp ?_
  intro i j hij
  have h0 : 0 ≤ (b - a) / ((m : ℝ) + 1) := div_nonneg (by linarith) (by positivity)
  have : (i : ℝ) ≤ j := by exact_mod_cast hij.le
  have := mul_le_mul_of_nonneg_right this h0
  linarith

/-- A grid whose quantiles lie between `ε` and `1 - ε`. -/
theorem PV.Ok.grid_central (h : PV.Ok w d) {ε : ℝ} (hε : 0 < ε) (hG : (mkPV er w d).bigGamma ≤ 2.5e22 * ε ^ 4) {a b : ℝ}
    (ha : ε ≤ a) (hb : b ≤ 1 - ε) (hab : a ≤ b) (m : ℕ) : ∃ xs : List ℝ, (mkPV er w d).ppfArray (gridQ a b m) = ⟨some (xs.map .fin), false⟩ ∧
      List.Forall₂ (AtQuantile (mkPV er w d) er) (gridQ a b m) xs ∧ xs.Pairwise (· ≤ ·) := by
  obtain ⟨xs, hx⟩ := h.ppfArray_central (er := er) hε hG (qs := gridQ a b m) (by simp [gridQ]) (by
    intro q hq
    simp only [gridQ, List.mem_map, List.mem_range] at hq
    obtain ⟨i, hi, rfl⟩ := hq
    have := linspace_mem hab m hi
    exact ⟨by linarith, by linarith⟩)
  obtain ⟨xs', e, h1, h2⟩ := h.converged hx
  have : xs' = xs := (List.map_injective_iff.2 (fun a b h => by simpa using h) e).symm
  subst this
  exact ⟨xs', hx, h1, h2 (gridQ_sorted hab m)⟩

/-- Shares of the intervals of such a grid. -/
theorem PV.Ok.shares (h : PV.Ok w d) {I : ℝ} (hI : 0 ≤ I) {a b : ℝ} {m : ℕ} {g : List ℝ}
    (hat : List.Forall₂ (AtQuantile (mkPV er w d) er) (gridQ a b m) g) :
    NearShares (fun E => I * (mkPV er w d).pdfR E) g ((b - a) / (m + 1) * I)
      (3.8e-8 / max w (2 * Real.sqrt (Real.log 2) * d) * I) := by
  intro i hi
  rw [List.forall₂_iff_get] at hat
  obtain ⟨hl, hat⟩ := hat
  have h1 := (hat i (by omega) (by omega)).1
  have h2 := (hat (i + 1) (by omega) (by omega)).1
  simp only [gridQ, List.get_eq_getElem, List.getElem_map, List.getElem_range] at h1 h2
  rw [intervalIntegral.integral_const_mul, h.good.intervalIntegral]
  have el := h.error_le (er := er)
  have e : (3.8e-8 : ℝ) / max w (2 * Real.sqrt (Real.log 2) * d) = 2 * (1.9e-8 / max w (2 * Real.sqrt (Real.log 2) * d)) := by
    rw [mul_div_assoc']; norm_num
  rw [e]
  have e2 : I * ((mkPV er w d).cdfR g[i + 1] - (mkPV er w d).cdfR g[i]) - (b - a) / (m + 1) * I
      = ((mkPV er w d).cdfR g[i + 1] - (mkPV er w d).cdfR g[i] - (b - a) / (m + 1)) * I := by ring
  rw [e2, abs_mul, abs_of_nonneg hI]
  refine mul_le_mul_of_nonneg_right ?_ hI
  rw [abs_le] at h1 h2 ⊢
  push_cast at h1 h2
  constructor <;> linarith

theorem dropLast_snoc (b : ℝ) : ∀ (x : ℝ) (l : List ℝ), (x :: l).dropLast ++ [b] = (x :: l).set l.length b
  | x, [] => rfl
  | x, y :: l => by
    have := dropLast_snoc b y l
    simp only [List.dropLast_cons_cons, List.cons_append, List.length_cons, List.set_cons_succ]
    rw [this]

/-- Replacing the ends of the grid by the limits. -/
theorem PV.Ok.setEnds_grid (h : PV.Ok w d) {a b : ℝ} (ha : a ≤ er) (hb : er ≤ b) {m : ℕ} {xs : List ℝ} (hlen : xs.length = m + 2)
    (hat : List.Forall₂ (AtQuantile (mkPV er w d) er) (gridQ ((mkPV er w d).cdfR a) ((mkPV er w d).cdfR b) m) xs)
    (hs : xs.Pairwise (· ≤ ·)) :
    ∃ g : List ℝ, Reso.setEnds (.fin a) (.fin b) (xs.map .fin) = .ok (g.map .fin) ∧ g.length = m + 2 ∧
      g.head? = some a ∧ g.getLast? = some b ∧
      List.Forall₂ (AtQuantile (mkPV er w d) er) (gridQ ((mkPV er w d).cdfR a) ((mkPV er w d).cdfR b) m) g ∧
      OrderedInside a b g := by
  have hgood := h.good (er := er)
  have hhalf := h.half (er := er)
  have hm0 := hgood.strictMono.monotone
  have hFab : (mkPV er w d).cdfR a ≤ (mkPV er w d).cdfR b := hm0 (ha.trans hb)
  have hε : 0 ≤ 1.9e-8 / (mkPV er w d).bigGamma := div_nonneg (by norm_num) (h.gamma_pos (er := er)).le
  have hata : AtQuantile (mkPV er w d) er ((mkPV er w d).cdfR a) a := by
    refine ⟨by simpa using hε, fun hq => ⟨?_, le_rfl⟩, fun _ => ⟨ha, le_rfl⟩⟩
    rw [← hhalf] at hq
    exact hgood.strictMono.le_iff_le.1 hq
  have hatb : AtQuantile (mkPV er w d) er ((mkPV er w d).cdfR b) b := by
    refine ⟨by simpa using hε, fun _ => ⟨hb, le_rfl⟩, fun hq => ⟨?_, le_rfl⟩⟩
    rw [← hhalf] at hq
    exact hgood.strictMono.le_iff_le.1 hq
  obtain ⟨x, y, t, rfl⟩ : ∃ x y t, xs = x :: y :: t := by
    match xs, hlen with
    | x :: y :: t, _ => exact ⟨x, y, t, rfl⟩
  have htl : t.length = m := by simpa using hlen
  have hmm : (m : ℝ) + 1 ≠ 0 := by positivity
  refine ⟨a :: ((y :: t).dropLast ++ [b]), ?_, ?_, rfl, ?_, ?_, ?_⟩
  · simp [Reso.setEnds, List.map_dropLast]
  · simp [htl]
  · rw [← List.cons_append, List.getLast?_append]; simp
  · rw [dropLast_snoc, List.forall₂_iff_get]
    rw [List.forall₂_iff_get] at hat
    refine ⟨by simp [gridQ, htl], ?_⟩
    intro i hi hi'
    have hat' := hat.2 i (by simpa [gridQ] using hi) (by simpa [htl] using hi')
    simp only [gridQ, List.get_eq_getElem, List.getElem_map, List.getElem_range] at hat' ⊢
    cases i with
    | zero => simpa using hata
    | succ i =>
      simp only [List.getElem_cons_succ] at hat' ⊢
      rw [List.getElem_set]
      split_ifs with he
      · have e : (mkPV er w d).cdfR a + ((i + 1 : ℕ) : ℝ) * (((mkPV er w d).cdfR b - (mkPV er w d).cdfR a) / (m + 1))
            = (mkPV er w d).cdfR b := by
          rw [← he, htl]; push_cast; field_simp; ring
        rw [e]; exact hatb
      · exact hat'
  · have inside : ∀ z ∈ y :: t, a ≤ z ∧ z ≤ b := by
      intro z hz
      obtain ⟨i, hi, rfl⟩ := List.getElem_of_mem hz
      rw [List.forall₂_iff_get] at hat
      have hat' := hat.2 (i + 1) (by simp [gridQ] at hi ⊢; omega) (by simp at hi ⊢; omega)
      simp only [gridQ, List.get_eq_getElem, List.getElem_map, List.getElem_range, List.getElem_cons_succ] at hat'
      have hl := linspace_mem hFab m (i := i + 1) (by simp at hi; omega)
      generalize (mkPV er w d).cdfR a + ((i + 1 : ℕ) : ℝ) * (((mkPV er w d).cdfR b - (mkPV er w d).cdfR a) / (m + 1)) = q at hat' hl
      rcases le_total (1 / 2) q with hq | hq
      · obtain ⟨c1, c2⟩ := hat'.2.1 hq
        exact ⟨ha.trans c1, hgood.strictMono.le_iff_le.1 (c2.trans hl.2)⟩
      · obtain ⟨c1, c2⟩ := hat'.2.2 hq
        exact ⟨hgood.strictMono.le_iff_le.1 (hl.1.trans c2), c1.trans hb⟩
    have inside' : ∀ z ∈ (y :: t).dropLast, a ≤ z ∧ z ≤ b := fun z hz => inside z (List.dropLast_subset _ hz)
    have hs' := (List.pairwise_cons.1 hs).2
    refine ⟨?_, ?_⟩
    · rw [List.pairwise_cons]
      refine ⟨?_, ?_⟩
      · intro z hz
        rcases List.mem_append.1 hz with hz | hz
        · exact (inside' z hz).1
        · simp at hz; subst hz; exact ha.trans hb
      · rw [List.pairwise_append]
        refine ⟨hs'.sublist (List.dropLast_sublist _), by simp, ?_⟩
        intro z hz z' hz'
        simp at hz'; subst hz'
        exact (inside' z hz).2
    · intro z hz
      rcases List.mem_cons.1 hz with rfl | hz
      · exact ⟨le_rfl, ha.trans hb⟩
      · rcases List.mem_append.1 hz with hz | hz
        · exact inside' z hz
        · simp at hz; subst hz; exact ⟨ha.trans hb, le_rfl⟩

end Ries
