import Verif.Lemmas.RoundedProbGrid
import Verif.Props.Resonance

/-! # Property C113: grids of equal probability in floating point -/

namespace Ries

/-- Without rounding this is the grid of C11 and C13. -/
theorem probGridR_exact {r : Reso} (h : IsBreitWigner r ∨ IsGauss r) (a b : ℝ) (m : ℕ) :
    r.probGridR id a b m = r.probGrid (.lims a b) ((m : ℤ) + 2) := by
  obtain ⟨F, p, Q, hA⟩ := analytic_of h
  have hrd : r.dist.rounded id = r.dist := by
    have hf : Fl.rounded id = id := by funext x; cases x <;> rfl
    cases hd : r.dist with
    | mk pdf cdf ppf =>
      simp only [Dist.rounded, hf, List.map_id_fun]
      congr 1
      · funext ps x; cases pdf ps x <;> rfl
      · funext ps x; cases cdf ps x <;> rfl
      · funext ps x
        cases ppf ps x with
        | error e => rfl
        | ok v => cases v <;> simp [Except.map]
  unfold Reso.probGridR Reso.probGrid
  simp only [hrd, hA.cdf, List.map_cons, List.map_nil, bind, Except.bind]
  have e := linspaceR_exact (F a) (F b) m
  simp only [energyGrid] at e
  rw [e]
  rfl

/-- C113: if both limits lie nine widths or more above a Gauss resonance, then in double precision every point between the
ends of the grid is infinite (the ends are overwritten, the points between them are not). -/
theorem C113_above {r : Reso} {l s : ℝ} (hd : r.dist = normDist) (hp : r.params = [l, s]) (hs : 0 < s) {a b : ℝ}
    (ha : l + 9 * s ≤ a) (hab : a ≤ b) (m : ℕ) :
    r.probGridR KN.rn a b m = .ok (some (.fin a :: (List.replicate m .pinf ++ [.fin b]))) := by
  have one : KN.rn 1 = 1 := by exact_mod_cast KN.rn_exact (n := 1) (by norm_num)
  have z : KN.rn 0 = 0 := by exact_mod_cast KN.rn_exact (n := 0) (by norm_num)
  have e : ∀ x, l + 9 * s ≤ x → KN.rn (normCdf l s x) = 1 := fun x hx =>
    KN.rn_near_one (normCdf_upper l hs hx) ((norm_good l hs).lt_one x).le
  rw [probGridR_eq hd hp hs, e a ha, e b (ha.trans hab)]
  congr 4
  rw [List.eq_replicate_iff]
  refine ⟨by simp, fun x hx => ?_⟩
  obtain ⟨i, -, rfl⟩ := List.mem_map.1 hx
  have : lpt KN.rn 1 1 m (i + 1) = 1 := by simp [lpt, z, one]
  rw [this]
  simp [ppfAt, Fl.rounded]

theorem gauss_params {r : Reso} (h : IsGauss r) : ∃ s, r.dist = normDist ∧ r.params = [r.er, s] ∧ 0 < s := by
  obtain ⟨k, init, inter, amu, T, final, hr, ha, hT, hE⟩ := h
  obtain ⟨r0, h0, -, rfl⟩ := mkGauss_inv hr
  refine ⟨_, rfl, rfl, ?_⟩
  have her := (mkResonance_inv h0).1
  have hpos : 0 < r0.er := by rw [her]; unfold noRecoil; linarith
  exact div_pos (dopplerWidth_pos k ha hT hpos) (by positivity)

theorem breitWigner_params {r : Reso} (h : IsBreitWigner r) : ∃ s, r.dist = cauchyDist ∧ r.params = [r.er, s] ∧ 0 < s := by
  obtain ⟨k, init, inter, final, w, hr, hw, hpos⟩ := h
  obtain ⟨r0, w', h0, hw', rfl⟩ := mkBreitWigner_inv hr
  rw [hw] at hw'; cases hw'
  exact ⟨_, rfl, rfl, by linarith⟩

/-- C113 is false of the code. -/
theorem C113_refuted : ¬ ∀ (r : Reso), IsBreitWigner r ∨ IsGauss r → ∀ a b : ℝ, a < b → KN.rn a = a → KN.rn b = b → ∀ m : ℕ,
    ∃ g : List ℝ, r.probGridR KN.rn a b m = .ok (some (g.map .fin)) ∧ OrderedInside a b g := by
  intro hall
  obtain ⟨r, hr⟩ := exIsGauss
  obtain ⟨s, hd, hp, hs⟩ := gauss_params hr
  set l := r.er
  set a := KN.rn (2 * |l + 9 * s|) with ha
  have hge : l + 9 * s ≤ a := by
    have h1 := abs_le.1 (KN.rn_rounding (2 * |l + 9 * s|))
    rw [abs_of_nonneg (by positivity : 0 ≤ 2 * |l + 9 * s|)] at h1
    have h2 := le_abs_self (l + 9 * s)
    have h3 := abs_nonneg (l + 9 * s)
    norm_num at h1
    linarith [h1.1]
  have hb : ∃ b, a < b ∧ KN.rn b = b := by
    refine ⟨KN.rn (2 * |a| + 1), ?_, KN.rn_idem _⟩
    have h1 := abs_le.1 (KN.rn_rounding (2 * |a| + 1))
    rw [abs_of_nonneg (by positivity : 0 ≤ 2 * |a| + 1)] at h1
    have h2 := le_abs_self a
    have h3 := abs_nonneg a
    norm_num at h1
    linarith [h1.1]
  obtain ⟨b, hab, hbb⟩ := hb
  obtain ⟨g, hg, -⟩ := hall r (.inr hr) a b hab (KN.rn_idem _) hbb 1
  rw [C113_above hd hp hs hge hab.le 1] at hg
  have : Fl.pinf ∈ g.map Fl.fin := by
    have h := Option.some.inj (Except.ok.inj hg)
    rw [← h]; simp
  simp at this

/-- C113, the part that holds: if the range contains a probability of at least `12 u (m + 1)` (1.3e-15 per interval in double
precision), then the grid starts and ends with the limits, is ordered, stays between them, and the probability below each
point is the exact one up to `u (12 + M max(|a|,|b|))`, where `M` is the largest density. Missing: ranges with less
probability, see `C113_above`. -/
theorem C113_partial {r : Reso} (h : IsBreitWigner r ∨ IsGauss r) {F : ℝ → ℝ} (hF : ∀ x, r.dist.cdf r.params [x] = .ok [.fin (F x)])
    {M : ℝ} (hM : ∀ x v, r.dist.pdf r.params x = .ok (.fin v) → v ≤ M) {fl : ℝ → ℝ} {u : ℝ} (hu : 0 ≤ u) (hfl : Rounding u fl)
    (hmono : Monotone fl) (hidem : ∀ x, fl (fl x) = fl x) (h1 : fl 1 = 1) {a b : ℝ} (ha : fl a = a) (hb : fl b = b)
    (hab : a < b) (m : ℕ) (hFab : 12 * u * (m + 1) ≤ F b - F a) :
    ∃ g : List ℝ, r.probGridR fl a b m = .ok (some (g.map .fin)) ∧ g.length = m + 2 ∧ g.head? = some a ∧
      g.getLast? = some b ∧ OrderedInside a b g ∧ ∀ i, (h : i < g.length) →
        |F g[i] - (F a + i * ((F b - F a) / (m + 1)))| ≤ u * (12 + M * max |a| |b|) := by
  rcases h with h | h
  · obtain ⟨s, hd, hp, hs⟩ := breitWigner_params h
    have hA := analytic_cauchy hd hp hs
    have e : F = cauchyCdf r.er s := by
      funext x
      have := hA.cdf [x]
      rw [hF x] at this
      simpa using this
    subst e
    exact rounded_grid_scipy hd hp hs hA.good hA.inv (fun x => hM x _ (hA.pdf x)) hu hfl hmono hidem h1 ha hb m hab hFab
  · obtain ⟨s, hd, hp, hs⟩ := gauss_params h
    have hA := analytic_norm hd hp hs
    have e : F = normCdf r.er s := by
      funext x
      have := hA.cdf [x]
      rw [hF x] at this
      simpa using this
    subst e
    exact rounded_grid_scipy (ppf := fun l s => invOf (normCdf l s)) hd hp hs hA.good hA.inv (fun x => hM x _ (hA.pdf x)) hu hfl hmono hidem h1 ha hb m hab hFab

/-- Double precision, range around the resonance containing at least half of the probability, 1001 points: the hypotheses are met. -/
example : ∃ (r : Reso) (F : ℝ → ℝ) (M a b : ℝ), IsBreitWigner r ∧ (∀ x, r.dist.cdf r.params [x] = .ok [.fin (F x)]) ∧
    (∀ x v, r.dist.pdf r.params x = .ok (.fin v) → v ≤ M) ∧ KN.rn a = a ∧ KN.rn b = b ∧ a < b ∧
    12 * (1 / 2 ^ 53) * ((999 : ℕ) + 1) ≤ F b - F a := by
  obtain ⟨r, hr, he, hpar⟩ := exBreitWigner
  have hw : IsBreitWigner r := ⟨_, _, _, _, 4, hr, exExcited_width, by norm_num⟩
  obtain ⟨s, hd, hp, hs⟩ := breitWigner_params hw
  have hs2 : s = 2 := by rw [hp] at hpar; simpa using (List.cons.inj (List.cons.inj hpar).2).1
  subst hs2
  have hA := analytic_cauchy hd hp hs
  refine ⟨r, cauchyCdf r.er 2, 1, 0, 4, hw, fun x => by simpa using hA.cdf [x], fun x v hv => ?_, ?_, ?_, by norm_num, ?_⟩
  · rw [hA.pdf x] at hv
    have : cauchyPdf r.er 2 x = v := by simpa using hv
    rw [← this, cauchyPdf, div_le_one (by positivity)]
    nlinarith [Real.pi_gt_three, sq_nonneg ((x - r.er) / 2)]
  · exact_mod_cast KN.rn_exact (n := 0) (by norm_num)
  · exact_mod_cast KN.rn_exact (n := 4) (by norm_num)
  · rw [he]
    simp only [cauchyCdf]
    norm_num [Real.arctan_neg, Real.arctan_one]
    have := Real.pi_pos
    field_simp
    norm_num

end Ries
