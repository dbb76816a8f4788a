import Verif.Spec.Resonance
import Verif.Lemmas.Dist
import Verif.Lemmas.Grid

/-! # Lemmas on resonances -/

open MeasureTheory

namespace Ries

/-- The resonance uses a distribution with distribution function `F` and density `p`,
and its quantile function inverts `F` on (0,1). -/
structure Analytic (r : Reso) (F p Q : ℝ → ℝ) : Prop where
  good : GoodCDF F p
  pdf : ∀ x, r.dist.pdf r.params x = .ok (.fin (p x))
  cdf : ∀ xs, r.dist.cdf r.params xs = .ok (xs.map fun x => .fin (F x))
  inv : ∀ q, 0 < q → q < 1 → F (Q q) = q
  ppf : ∀ qs : List ℝ, (∀ q ∈ qs, 0 < q ∧ q < 1) →
    r.dist.ppf r.params (qs.map .fin) = .ok (some (qs.map fun q => .fin (Q q)))

theorem analytic_of_scipy {pdf cdf ppf : ℝ → ℝ → ℝ → ℝ} {lo hi : ℝ → ℝ → Fl} {r : Reso} {l s : ℝ}
    (hd : r.dist = scipyDist pdf cdf ppf lo hi) (hp : r.params = [l, s]) (hs : 0 < s)
    (hg : GoodCDF (cdf l s) (pdf l s)) (hi' : ∀ q, 0 < q → q < 1 → cdf l s (ppf l s q) = q) :
    Analytic r (cdf l s) (pdf l s) (ppf l s) where
  good := hg
  pdf x := by
    rw [hd, hp]; simp [scipyDist, locScale, bind, Except.bind, hs]
  cdf xs := by
    rw [hd, hp]; simp [scipyDist, locScale, bind, Except.bind, hs]
  inv := hi'
  ppf qs hq := by
    rw [hd, hp]
    simp only [scipyDist, locScale, bind, Except.bind, hs, if_true, List.map_map]
    congr 2
    apply List.map_congr_left
    intro q hqm
    have h := hq q hqm
    simp [ppfAt, h.1.ne', h.2.ne, h.1, h.2]

theorem analytic_cauchy {r : Reso} {l s : ℝ} (hd : r.dist = cauchyDist) (hp : r.params = [l, s])
    (hs : 0 < s) : Analytic r (cauchyCdf l s) (cauchyPdf l s) (cauchyPpf l s) :=
  analytic_of_scipy (lo := fun _ _ => .ninf) (hi := fun _ _ => .pinf) hd hp hs (cauchy_good _ hs)
    fun _ h0 h1 => cauchyPpf_spec _ hs h0 h1

theorem analytic_norm {r : Reso} {l s : ℝ} (hd : r.dist = normDist) (hp : r.params = [l, s])
    (hs : 0 < s) : Analytic r (normCdf l s) (normPdf l s) (invOf (normCdf l s)) :=
  analytic_of_scipy (ppf := fun l s => invOf (normCdf l s)) (lo := fun _ _ => .ninf)
    (hi := fun _ _ => .pinf) hd hp hs (norm_good _ hs)
    fun _ h0 h1 => (norm_good _ hs).invOf_spec h0 h1

theorem mkBreitWigner_inv {k : PhysConst} {init inter : Level} {final : Option Level} {r : Reso}
    (h : mkBreitWigner k init inter final = .ok r) : ∃ r0 w, mkResonance k init inter final noRecoil = .ok r0 ∧
      inter.width = .ok w ∧ r = { r0 with dist := cauchyDist, params := [r0.er, 0.5 * w] } := by
  unfold mkBreitWigner at h
  cases h0 : mkResonance k init inter final noRecoil with
  | error e => simp [h0, bind, Except.bind] at h
  | ok r0 =>
    cases h1 : inter.width with
    | error e => simp [h0, h1, bind, Except.bind] at h
    | ok w =>
      simp only [h0, h1, bind, Except.bind, Except.ok.injEq] at h
      exact ⟨r0, w, rfl, rfl, h.symm⟩

theorem mkGauss_inv {k : PhysConst} {init inter : Level} {amu T : ℝ} {final : Option Level} {r : Reso}
    (h : mkGauss k init inter amu T final = .ok r) : ∃ r0, mkResonance k init inter final noRecoil = .ok r0 ∧ amu ≠ 0 ∧
      r = { r0 with dist := normDist, params := [r0.er, dopplerWidth k amu T r0.er / Real.sqrt 2] } := by
  unfold mkGauss at h
  cases h0 : mkResonance k init inter final noRecoil with
  | error e => simp [h0, bind, Except.bind] at h
  | ok r0 =>
    unfold getDopplerWidth at h
    by_cases ha : amu = 0
    · simp [h0, ha, bind, Except.bind] at h
    · have : ¬ amu * k.u = 0 := mul_ne_zero ha k.u_pos.ne'
      simp only [h0, this, if_false, bind, Except.bind, Except.ok.injEq] at h
      exact ⟨r0, rfl, ha, h.symm⟩

/-- everything that a successful construction says -/
theorem mkResonance_inv {k : PhysConst} {init inter : Level} {final : Option Level} {R : ℝ → ℝ} {r : Reso}
    (h : mkResonance k init inter final R = .ok r) :
    r.er = R (inter.exc - init.exc) ∧ r.er ≠ 0 ∧ r.const = (Real.pi * k.hbarc) ^ 2 ∧
    (init.twoJ : ℝ) + 1 ≠ 0 ∧ r.stat = ((inter.twoJ : ℝ) + 1) / ((init.twoJ : ℝ) + 1) ∧
    branchingRatio inter final = .ok r.br ∧
    (∃ pw g0, inter.widths = some pw ∧ lookup init.Jpi pw = .ok g0 ∧
      r.ics = r.const / r.er ^ 2 * r.stat * g0 * r.br) ∧
    r.dist = uniformDist ∧ r.params = [r.er - 0.5, 1] := by
  unfold mkResonance statFactor integratedCS fdiv at h
  by_cases hJ : (init.twoJ : ℝ) + 1 = 0
  · simp [hJ, bind, Except.bind] at h
  cases hb : branchingRatio inter final with
  | error e => simp [hJ, hb, bind, Except.bind] at h
  | ok br =>
    by_cases hE : R (inter.exc - init.exc) = 0
    · simp [hJ, hb, hE, bind, Except.bind] at h
    unfold Level.partialWidths at h
    cases hw : inter.widths with
    | none => simp [hJ, hb, hE, hw, bind, Except.bind] at h
    | some pw =>
      cases hl : lookup init.Jpi pw with
      | error e => simp [hJ, hb, hE, hw, hl, bind, Except.bind] at h
      | ok g0 =>
        simp [hJ, hb, hE, hw, hl, bind, Except.bind] at h
        subst h
        exact ⟨rfl, hE, rfl, hJ, rfl, rfl, ⟨pw, g0, rfl, hl, rfl⟩, rfl, rfl⟩

theorem IsBreitWigner.analytic {r : Reso} (h : IsBreitWigner r) : ∃ F p Q, Analytic r F p Q := by
  obtain ⟨k, init, inter, final, w, hr, hw, hpos⟩ := h
  obtain ⟨r0, w', h0, hw', rfl⟩ := mkBreitWigner_inv hr
  rw [hw] at hw'; cases hw'
  have hs : (0 : ℝ) < 0.5 * w := by linarith
  exact ⟨_, _, _, analytic_cauchy rfl rfl hs⟩

theorem dopplerWidth_pos (k : PhysConst) {amu T E : ℝ} (ha : 0 < amu) (hT : 0 < T) (hE : 0 < E) :
    0 < dopplerWidth k amu T E := by
  unfold dopplerWidth
  have := k.kB_pos; have := k.u_pos
  positivity

theorem IsGauss.analytic {r : Reso} (h : IsGauss r) : ∃ F p Q, Analytic r F p Q := by
  obtain ⟨k, init, inter, amu, T, final, hr, ha, hT, hE⟩ := h
  obtain ⟨r0, h0, -, rfl⟩ := mkGauss_inv hr
  have her := (mkResonance_inv h0).1
  have hpos : 0 < r0.er := by rw [her]; unfold noRecoil; linarith
  have hs : 0 < dopplerWidth k amu T r0.er / Real.sqrt 2 :=
    div_pos (dopplerWidth_pos k ha hT hpos) (by positivity)
  exact ⟨_, _, _, analytic_norm rfl rfl hs⟩

namespace Analytic
variable {r : Reso} {F p Q : ℝ → ℝ}

theorem sigma (h : Analytic r F p Q) : r.HasSigma fun E => r.ics * p E := by
  intro E
  simp [Reso.call, h.pdf, bind, Except.bind, Fl.smul]

theorem Q_F (h : Analytic r F p Q) (x : ℝ) : Q (F x) = x :=
  h.good.strictMono.injective (h.inv _ (h.good.gt_zero x) (h.good.lt_one x))

theorem Q_lt (h : Analytic r F p Q) {a b : ℝ} (ha : 0 < a) (hb : b < 1) (hab : a < b) : Q a < Q b := by
  rw [← h.good.strictMono.lt_iff_lt, h.inv a ha (by linarith), h.inv b (by linarith) hb]
  exact hab

theorem integral_sigma (h : Analytic r F p Q) (a b : ℝ) :
    ∫ E in a..b, r.ics * p E = r.ics * (F b - F a) := by
  rw [intervalIntegral.integral_const_mul, h.good.intervalIntegral]

end Analytic

/-- the quantiles used for a grid stay strictly between 0 and 1 -/
theorem linspace_mem {a b : ℝ} (hab : a ≤ b) (m : ℕ) {i : ℕ} (hi : i < m + 2) :
    a ≤ a + i * ((b - a) / (m + 1)) ∧ a + i * ((b - a) / (m + 1)) ≤ b := by
  have hm : (0 : ℝ) < m + 1 := by positivity
  have hi' : (i : ℝ) ≤ m + 1 := by exact_mod_cast (by omega : i ≤ m + 1)
  have h0 : 0 ≤ (b - a) / (m + 1) := div_nonneg (by linarith) hm.le
  refine ⟨?_, ?_⟩
  · have : 0 ≤ (i : ℝ) * ((b - a) / (m + 1)) := by positivity
    linarith
  · have h1 : (i : ℝ) * ((b - a) / (m + 1)) ≤ (m + 1) * ((b - a) / (m + 1)) :=
      mul_le_mul_of_nonneg_right hi' h0
    have h2 : ((m : ℝ) + 1) * ((b - a) / (m + 1)) = b - a := by field_simp
    linarith

/-- The list of energies of the grid over the quantile range `[a,b]`. -/
noncomputable def qgrid (Q : ℝ → ℝ) (a b : ℝ) (m : ℕ) : List ℝ :=
  (List.range (m + 2)).map fun i : ℕ => Q (a + i * ((b - a) / (m + 1)))

theorem qgrid_length (Q : ℝ → ℝ) (a b : ℝ) (m : ℕ) : (qgrid Q a b m).length = m + 2 := by
  simp [qgrid]

theorem qgrid_get (Q : ℝ → ℝ) (a b : ℝ) (m i : ℕ) (h : i < (qgrid Q a b m).length) :
    (qgrid Q a b m)[i] = Q (a + i * ((b - a) / (m + 1))) := by
  simp [qgrid]

theorem qgrid_head (Q : ℝ → ℝ) (a b : ℝ) (m : ℕ) : (qgrid Q a b m).head? = some (Q a) := by
  simp [qgrid, List.head?_range]

theorem qgrid_last (Q : ℝ → ℝ) (a b : ℝ) (m : ℕ) : (qgrid Q a b m).getLast? = some (Q b) := by
  have hm : (m : ℝ) + 1 ≠ 0 := by positivity
  rw [qgrid, List.range_succ, List.map_append]
  simp only [List.map_cons, List.map_nil, List.getLast?_append, List.getLast?_singleton,
    Option.some_or, Option.some.injEq]
  congr 1
  push_cast
  field_simp
  ring

theorem Analytic.ppf_linspace {r : Reso} {F p Q : ℝ → ℝ} (h : Analytic r F p Q) {a b : ℝ}
    (ha : 0 < a) (hb : b < 1) (hab : a ≤ b) (m : ℕ) :
    r.dist.ppf r.params ((List.range (m + 2)).map fun i : ℕ => Fl.fin (a + i * ((b - a) / (m + 1))))
      = .ok (some ((qgrid Q a b m).map .fin)) := by
  have := h.ppf ((List.range (m + 2)).map fun i : ℕ => a + i * ((b - a) / (m + 1))) (by
    intro q hq
    simp only [List.mem_map, List.mem_range] at hq
    obtain ⟨i, hi, rfl⟩ := hq
    have := linspace_mem hab m hi
    exact ⟨by linarith, by linarith⟩)
  simpa [List.map_map, Function.comp_def, qgrid] using this

theorem Analytic.qgrid_pairwise {r : Reso} {F p Q : ℝ → ℝ} (h : Analytic r F p Q) {a b : ℝ}
    (ha : 0 < a) (hb : b < 1) (hab : a < b) (m : ℕ) : (qgrid Q a b m).Pairwise (· < ·) := by
  unfold qgrid
  rw [List.pairwise_map]
  refine (List.pairwise_lt_range).imp_of_mem ?_
  intro i j hi hj hij
  simp only [List.mem_range] at hi hj
  have h1 := linspace_mem hab.le m hi
  have h2 := linspace_mem hab.le m hj
  have hm : (0 : ℝ) < m + 1 := by positivity
  refine h.Q_lt (by linarith) (by linarith) ?_
  have h0 : 0 < (b - a) / (m + 1) := div_pos (by linarith) hm
  have : (i : ℝ) < j := by exact_mod_cast hij
  have := mul_lt_mul_of_pos_right this h0
  linarith

theorem Analytic.qgrid_shares {r : Reso} {F p Q : ℝ → ℝ} (h : Analytic r F p Q) {a b : ℝ}
    (ha : 0 < a) (hb : b < 1) (hab : a ≤ b) (m : ℕ) :
    EqualShares (fun E => r.ics * p E) (qgrid Q a b m) (r.ics * ((b - a) / (m + 1))) := by
  intro i hi
  rw [qgrid_length] at hi
  have h1 := linspace_mem hab m (show i < m + 2 by omega)
  have h2 := linspace_mem hab m hi
  rw [h.integral_sigma, qgrid_get, qgrid_get, h.inv _ (by linarith) (by linarith),
    h.inv _ (by linarith) (by linarith)]
  push_cast
  ring

theorem setEnds_of_ends {a b : Fl} {g : List Fl} (hl : 2 ≤ g.length) (h0 : g.head? = some a)
    (h1 : g.getLast? = some b) : Reso.setEnds a b g = .ok g := by
  match g with
  | [] => simp at hl
  | [_] => simp at hl
  | x :: y :: g =>
    simp only [List.head?_cons, Option.some.injEq] at h0
    subst h0
    simp only [Reso.setEnds, Except.ok.injEq, List.cons.injEq, true_and]
    rw [List.getLast?_cons_cons] at h1
    exact List.dropLast_append_getLast? b h1

end Ries
