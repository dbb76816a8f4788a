import Verif.Lemmas.SumConv
import Verif.Model.NonresonantLeaf

/-! # Property C143: integrals over the equal-probability grid of a sum of cross sections -/

open MeasureTheory Set

namespace Ries

/-- The grid of the object exists for every number of points, and its points are not outside of the limits. -/
def InsideLimits (a b : ℝ) (o : Obj) : Prop :=
  ∀ n : ℤ, 2 ≤ n → ∃ g : List ℝ, o.probGrid (.lims a b) n = .ok (g.map .fin) ∧ ∀ x ∈ g, a ≤ x ∧ x ≤ b

/-- Objects whose grids become dense, with the number that, divided by `n - 1`, limits the distance of neighbouring points: for
constants and nonresonant processes the distance of the limits; for a Breit-Wigner or Gauss resonance the integral of the cross
section between the limits divided by its smaller value at the limits; for a (nested) sum the number of any of its
constituents, if no other one has points outside. -/
inductive Refines (a b : ℝ) : ℝ → Obj → Prop
  | const (c : ℝ) : Refines a b (b - a) (.const c)
  | process (l : Leaf) (h : l.grid = constGrid) : Refines a b (b - a) (.leaf l)
  | resonance (r : Reso) (h : IsBreitWigner r ∨ IsGauss r) (hI : 0 < r.ics) (σ : ℝ → ℝ) (hσ : r.HasSigma σ) :
      Refines a b ((∫ E in a..b, σ E) / min (σ a) (σ b)) (.leaf r.toLeaf)
  | sum (C : ℝ) (rs ss : List Obj) (o : Obj) (ho : o ∈ rs) (h : Refines a b C o) (hall : ∀ o' ∈ rs, InsideLimits a b o') :
      Refines a b C (.wsum rs ss)

/-- a grid of numbers, strictly increasing for sums -/
theorem Refines.dense {a b C : ℝ} {o : Obj} (h : Refines a b C o) (hab : a < b) (n : ℤ) (hn : 2 ≤ n) :
    ∃ g : List ℝ, o.probGrid (.lims a b) n = .ok (g.map .fin) ∧ g.Pairwise (· < ·) ∧ DenseIn a b (C / (n - 1)) g := by
  induction h with
  | const c =>
    obtain ⟨g, h1, h0, h2⟩ := linspace_denseIn hab n hn
    exact ⟨g, by simp only [Obj.probGrid, constGrid, h1], h0, h2⟩
  | process l hl =>
    obtain ⟨g, h1, h0, h2⟩ := linspace_denseIn hab n hn
    exact ⟨g, by simp only [Obj.probGrid, hl, constGrid, h1], h0, h2⟩
  | resonance r hr hI σ hσ =>
    obtain ⟨g, h1, h0, h2⟩ := resonance_denseIn hr hI hσ hab n hn
    exact ⟨g, by simp only [Obj.probGrid, Reso.toLeaf, bind, Except.bind, h1], h0, h2⟩
  | sum C rs ss o ho h hall ih =>
    obtain ⟨g, h1, h2, h3⟩ := ih
    obtain ⟨hex, hprop⟩ := C14_sum_grid rs ss (.lims a b) n
    obtain ⟨G, hG⟩ := hex.2 fun o' ho' => by
      obtain ⟨g', hg', -⟩ := hall o' ho' n hn
      exact ⟨_, hg'⟩
    obtain ⟨hs, hmem⟩ := hprop G hG
    obtain ⟨G', rfl⟩ : ∃ G' : List ℝ, G = G'.map .fin := by
      have : ∀ x ∈ G, ∃ y : ℝ, x = .fin y := by
        intro x hx
        obtain ⟨o', ho', go, hgo, hx'⟩ := (hmem x).1 hx
        obtain ⟨g', hg', -⟩ := hall o' ho' n hn
        rw [hg', Except.ok.injEq] at hgo
        subst hgo
        obtain ⟨y, -, rfl⟩ := List.mem_map.1 hx'
        exact ⟨y, rfl⟩
      clear hG hs hmem
      induction G with
      | nil => exact ⟨[], rfl⟩
      | cons x xs ih =>
        obtain ⟨y, rfl⟩ := this x (by simp)
        obtain ⟨ys, rfl⟩ := ih fun z hz => this z (by simp [hz])
        exact ⟨y :: ys, rfl⟩
    have hsub : ∀ y ∈ g, y ∈ G' := by
      intro y hy
      have := (hmem (.fin y)).2 ⟨o, ho, _, h1, List.mem_map_of_mem hy⟩
      obtain ⟨z, hz, e⟩ := List.mem_map.1 this
      cases e
      exact hz
    refine ⟨G', hG, ?_, ?_, hsub _ h3.left, hsub _ h3.right, ?_⟩
    · rw [List.pairwise_map] at hs
      exact hs.imp fun h => Fl.fin_lt_fin.1 h
    · intro x hx
      obtain ⟨o', ho', go, hgo, hx'⟩ := (hmem (.fin x)).1 (List.mem_map_of_mem hx)
      obtain ⟨g', hg', hin⟩ := hall o' ho' n hn
      rw [hg', Except.ok.injEq] at hgo
      subst hgo
      obtain ⟨z, hz, e⟩ := List.mem_map.1 hx'
      cases e
      exact hin _ hz
    · intro x h4 h5
      obtain ⟨y, hy, h6⟩ := h3.gap x h4 h5
      exact ⟨y, hsub y hy, h6⟩

/-- C143: on the equal-probability grid between the limits `a < b` of a sum of cross sections, both Darboux sums of every function
that is continuous between the limits are as near to the integral as desired for a sufficiently large number of points. -/
theorem C143_converges {a b C : ℝ} (hab : a < b) {o : Obj} (h : Refines a b C o) {f : ℝ → ℝ} (hf : ContinuousOn f (Icc a b))
    {ε : ℝ} (hε : 0 < ε) :
    ∃ N : ℤ, ∀ n ≥ N, ∃ (g : List ℝ) (L D : ℝ), o.probGrid (.lims a b) n = .ok (g.map .fin) ∧
      darboux (vectorised f) g = .ok (L, D) ∧ 0 ≤ D ∧ |L - ∫ E in a..b, f E| ≤ ε ∧ |L + D - ∫ E in a..b, f E| ≤ ε := by
  obtain ⟨δ, hδ, hd⟩ := C86_converges hab.le hf hε
  refine ⟨max 2 (⌈C / δ⌉ + 2), fun n hn => ?_⟩
  have h2 : 2 ≤ n := (le_max_left _ _).trans hn
  obtain ⟨g, hg, hs, hD⟩ := h.dense hab n h2
  obtain ⟨e1, e2, e3⟩ := chain_of_denseIn hs hD
  have hCn : C / (n - 1) ≤ δ := by
    have h3 : ((⌈C / δ⌉ : ℤ) : ℝ) + 2 ≤ n := by exact_mod_cast (le_max_right _ _).trans hn
    have h4 := Int.le_ceil (C / δ)
    have h5 : (2 : ℝ) ≤ n := by exact_mod_cast h2
    rw [div_le_iff₀ (by linarith)]
    rw [div_le_iff₀ hδ] at h4
    nlinarith
  obtain ⟨L, D, h3⟩ := hd g e1 e2 (e3.imp fun s t h => ⟨h.1, h.2.trans hCn⟩)
  exact ⟨g, L, D, hg, h3⟩

/-- C143 with a rate: for a function that changes by at most `K` times the change of the energy, both sums are within
`K (b - a) C / (n - 1)` of the integral. -/
theorem C143_rate {a b C : ℝ} (hab : a < b) {o : Obj} (h : Refines a b C o) {f : ℝ → ℝ} {K : ℝ} (hK : 0 ≤ K)
    (hf : ∀ u ∈ Icc a b, ∀ v ∈ Icc a b, |f u - f v| ≤ K * |u - v|) (n : ℤ) (hn : 2 ≤ n) :
    ∃ (g : List ℝ) (L D : ℝ), o.probGrid (.lims a b) n = .ok (g.map .fin) ∧ darboux (vectorised f) g = .ok (L, D) ∧ 0 ≤ D ∧
      |L - ∫ E in a..b, f E| ≤ K * (b - a) * C / (n - 1) ∧ |L + D - ∫ E in a..b, f E| ≤ K * (b - a) * C / (n - 1) := by
  obtain ⟨g, hg, hs, hD⟩ := h.dense hab n hn
  obtain ⟨e1, e2, e3⟩ := chain_of_denseIn hs hD
  have hcont : ContinuousOn f (Icc a b) := by
    have : LipschitzOnWith ⟨K, hK⟩ f (Icc a b) := LipschitzOnWith.of_dist_le_mul fun u hu v hv => by
      simp only [Real.dist_eq]
      exact hf u hu v hv
    exact this.continuousOn
  obtain ⟨x, xs, rfl⟩ : ∃ y ys, g = y :: ys := by
    cases g with
    | nil => simp at e1
    | cons y ys => exact ⟨y, ys, rfl⟩
  simp only [List.head?_cons, Option.some.injEq] at e1
  subst e1
  have hl : (x :: xs).getLast (by simp) = b := by
    rw [List.getLast?_eq_some_getLast (by simp)] at e2; simpa using e2
  have key : (x :: xs).IsChain (SmallPiece f (fun t => K * (C / (n - 1)) * t)) := by
    rw [List.isChain_iff_getElem] at e3 ⊢
    intro i hi
    have hsI := hD.mem _ (List.getElem_mem (l := x :: xs) (n := i) (by omega))
    have htI := hD.mem _ (List.getElem_mem (l := x :: xs) (n := i + 1) hi)
    obtain ⟨hst, hd⟩ := e3 i hi
    generalize (x :: xs)[i] = s at *
    generalize (x :: xs)[i + 1] = t at *
    have hsub : Icc s t ⊆ Icc x b := Icc_subset_Icc hsI.1 htI.2
    refine ⟨hst, (hcont.mono (by rwa [uIcc_of_le hst])).intervalIntegrable, fun u hu v hv => ?_⟩
    have h1 := hf u (hsub hu) v (hsub hv)
    have h2 : |u - v| ≤ C / (n - 1) := by
      rw [abs_le]; constructor <;> linarith [hu.1, hu.2, hv.1, hv.2]
    have h3 : |f u - f v| ≤ K * (C / (n - 1)) := h1.trans (mul_le_mul_of_nonneg_left h2 hK)
    rw [← mul_sub]
    exact mul_le_mul_of_nonneg_right h3 (by linarith)
  obtain ⟨L, D, e, hD', e1, e2⟩ := darboux_near x xs key
  rw [hl] at e1 e2
  have hfin : K * (C / (n - 1)) * b - K * (C / (n - 1)) * x = K * (b - x) * C / (n - 1) := by ring
  exact ⟨_, L, D, hg, e, hD', e1.trans hfin.le, e2.trans hfin.le⟩

/-- C143: the objects with the rate above have no points outside of the limits, so sums of them, and sums of such sums, have it, too. -/
theorem C143_inside {a b C : ℝ} (hab : a < b) {o : Obj} (h : Refines a b C o) : InsideLimits a b o := by
  intro n hn
  obtain ⟨g, hg, -, hD⟩ := h.dense hab n hn
  exact ⟨g, hg, hD.mem⟩

/-- C143: pseudo-Voigt resonances have no points outside of limits around the resonance energy and may be constituents. -/
theorem C143_pseudo_voigt {r : Reso} {w d : ℝ} (h : IsPseudoVoigtOf r w d) {ε : ℝ} (hε : 0 < ε)
    (hG : 2 * Real.sqrt (Real.log 2) * d + w ≤ 2.5e22 * ε ^ 4) (hI : 0 < r.ics) {σ : ℝ → ℝ} (hσ : r.HasSigma σ) {a b : ℝ}
    (ha : a ≤ r.er) (hb : r.er ≤ b) (hqa : ε * ∫ E, σ E ≤ ∫ E in Iic a, σ E) (hqb : ε * ∫ E, σ E ≤ ∫ E in Ioi b, σ E) :
    InsideLimits a b (.leaf r.toLeaf) := by
  intro n hn
  obtain ⟨g, hg, -, h1, h2, h3, -⟩ := C82_limits_grid h hε hG hI hσ ha hb hqa hqb n hn
  exact ⟨g, by simp only [Obj.probGrid, Reso.toLeaf, bind, Except.bind, hg], h3.2⟩

/-- The hypotheses are met by the sum of a resonance, a Compton cross section and a constant, with the distance of the limits
as well as with the number of the resonance. -/
example : ∃ (r : Reso) (σ : ℝ → ℝ) (o : Obj), r.HasSigma σ ∧
    o = .wsum [.leaf r.toLeaf, .wsum [.leaf ((KN.electron exConst 6).toLeaf exConst), .const 1] [.num 1, .num 2]] [.num 1, .num 1] ∧
    Refines 1 3 (3 - 1) o ∧ Refines 1 3 ((∫ E in (1 : ℝ)..3, σ E) / min (σ 1) (σ 3)) o := by
  obtain ⟨r, h, -, hI⟩ := exMid_resonance
  have hB : IsBreitWigner { r with dist := cauchyDist, params := [r.er, 0.5 * 1e-5] } :=
    ⟨exConst, exGround, exMid, none, 1e-5, by simp [mkBreitWigner, h, exMid_width, Bind.bind, Except.bind], exMid_width, by norm_num⟩
  obtain ⟨F, p, Q, hA⟩ := analytic_of (Or.inl hB)
  have hab : (1 : ℝ) < 3 := by norm_num
  have h1 := Refines.resonance (a := 1) (b := 3) _ (Or.inl hB) hI _ hA.sigma
  have h2 : Refines 1 3 (3 - 1) (.leaf ((KN.electron exConst 6).toLeaf exConst)) := .process _ rfl
  have h3 : Refines 1 3 (3 - 1) (.const 1) := .const 1
  have h4 : Refines 1 3 (3 - 1) (.wsum [.leaf ((KN.electron exConst 6).toLeaf exConst), .const 1] [.num 1, .num 2]) :=
    .sum _ _ _ _ (by simp) h3 (by
      intro o ho
      simp only [List.mem_cons, List.not_mem_nil, or_false] at ho
      rcases ho with rfl | rfl
      · exact C143_inside hab h2
      · exact C143_inside hab h3)
  have hall : ∀ o ∈ [Obj.leaf (Reso.toLeaf { r with dist := cauchyDist, params := [r.er, 0.5 * 1e-5] }),
      .wsum [.leaf ((KN.electron exConst 6).toLeaf exConst), .const 1] [.num 1, .num 2]], InsideLimits 1 3 o := by
    intro o ho
    simp only [List.mem_cons, List.not_mem_nil, or_false] at ho
    rcases ho with rfl | rfl
    · exact C143_inside hab h1
    · exact C143_inside hab h4
  exact ⟨_, _, _, hA.sigma, rfl, .sum _ _ _ _ (by simp) h4 hall, .sum _ _ _ _ (by simp) h1 hall⟩

end Ries
