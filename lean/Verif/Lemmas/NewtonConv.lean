import Verif.Lemmas.Newton
import Verif.Lemmas.PseudoVoigt
import Mathlib.Analysis.Real.Pi.Bounds
import Mathlib.Analysis.Complex.ExponentialBounds

/-! # Speed of convergence of the Newton iteration towards a quantile -/

open Filter Topology

namespace Ries

/-- A step of the iteration never crosses the root, and it reduces the product of error and density to at most a quarter. -/
theorem newton_quarter {F p : ℝ → ℝ} {c : ℝ} (h : GoodCDF F p) (hp : Peaked c p) {q x : ℝ} (hx : OnSide F c q x) :
    |F (x - (F x - q) / p x) - q| * p (x - (F x - q) / p x) ≤ 1 / 4 * (|F x - q| * p x) := by
  have hpx := h.pos x
  obtain ⟨⟨s1, s2⟩, -, -⟩ := onSide_step h hp hx
  -- `t` is the ratio of the densities
  have key : ∀ r r' t P : ℝ, 0 ≤ r → 0 < P → 0 < t → r' ≤ r * (1 - t / P) → r' * t ≤ 1 / 4 * (r * P) := by
    intro r r' t P hr hP ht hle
    have h1 : r' * t ≤ r * (1 - t / P) * t := mul_le_mul_of_nonneg_right hle ht.le
    have h2 : r * (1 - t / P) * t = r * P * (t / P * (1 - t / P)) := by field_simp
    have h3 : t / P * (1 - t / P) ≤ 1 / 4 := by nlinarith [sq_nonneg (t / P - 1 / 2)]
    have := mul_le_mul_of_nonneg_left h3 (mul_nonneg hr hP.le)
    linarith
  refine key _ _ _ _ (abs_nonneg _) hpx (h.pos _) ?_
  set y := x - (F x - q) / p x with hy
  rcases le_total (1 / 2) q with hq | hq
  · obtain ⟨hc, hF⟩ := hx.1 hq
    obtain ⟨hc', hF'⟩ := s1 hq
    rw [abs_of_nonpos (by linarith), abs_of_nonpos (by linarith)]
    rcases hF.eq_or_lt with he | hlt
    · have : y = x := by rw [hy, he]; simp
      rw [this, he]; simp
    have hxy : x < y := by
      have : 0 < (q - F x) / p x := div_pos (by linarith) hpx
      have e : (F x - q) / p x = -((q - F x) / p x) := by ring
      rw [hy, e]; linarith
    obtain ⟨ξ, a, b, e⟩ := h.slope hxy
    have p1 : p y ≤ p ξ := hp.anti_right (hc.trans a.le) b.le
    have e2 : y - x = (q - F x) / p x := by rw [hy]; ring
    have : p y * ((q - F x) / p x) ≤ F y - F x := by
      rw [e, e2]; exact mul_le_mul_of_nonneg_right p1 (div_nonneg (by linarith) hpx.le)
    have e3 : -(F x - q) * (1 - p y / p x) = (q - F x) - p y * ((q - F x) / p x) := by field_simp; ring
    rw [e3]; linarith
  · obtain ⟨hc, hF⟩ := hx.2 hq
    obtain ⟨hc', hF'⟩ := s2 hq
    rw [abs_of_nonneg (by linarith), abs_of_nonneg (by linarith)]
    rcases hF.eq_or_lt with he | hlt
    · have : y = x := by rw [hy, he]; simp
      rw [this, he]; simp
    have hxy : y < x := by
      have : 0 < (F x - q) / p x := div_pos (by linarith) hpx
      rw [hy]; linarith
    obtain ⟨ξ, a, b, e⟩ := h.slope hxy
    have p1 : p y ≤ p ξ := hp.mono_left (b.le.trans hc) a.le
    have e2 : x - y = (F x - q) / p x := by rw [hy]; ring
    have : p y * ((F x - q) / p x) ≤ F x - F y := by
      rw [e, e2]; exact mul_le_mul_of_nonneg_right p1 (div_nonneg (by linarith) hpx.le)
    have e3 : (F x - q) * (1 - p y / p x) = (F x - q) - p y * ((F x - q) / p x) := by field_simp
    rw [e3]; linarith

/-- On the way to the root the density is at least that at the root. -/
theorem onSide_density {F p : ℝ → ℝ} {c : ℝ} (h : GoodCDF F p) (hp : Peaked c p) {q x xs : ℝ} (hx : OnSide F c q x)
    (hxs : F xs = q) : p xs ≤ p x := by
  rcases le_total (1 / 2) q with hq | hq
  · obtain ⟨hc, hF⟩ := hx.1 hq
    exact hp.anti_right hc (h.strictMono.le_iff_le.1 (by rw [hxs]; exact hF))
  · obtain ⟨hc, hF⟩ := hx.2 hq
    exact hp.mono_left hc (h.strictMono.le_iff_le.1 (by rw [hxs]; exact hF))

/-- Bound of the next step. -/
theorem newton_step_le {F p : ℝ → ℝ} {c : ℝ} (h : GoodCDF F p) (hp : Peaked c p) {q x m D : ℝ} (hx : OnSide F c q x)
    (hm : 0 < m) (hroot : ∃ xs, F xs = q ∧ m ≤ p xs) (hD : |F x - q| * p x ≤ D) : |(F x - q) / p x| ≤ D / m ^ 2 := by
  obtain ⟨xs, hxs, hmx⟩ := hroot
  have hpx := h.pos x
  have hmp : m ≤ p x := hmx.trans (onSide_density h hp hx hxs)
  rw [abs_div, abs_of_pos hpx]
  calc |F x - q| / p x = |F x - q| * p x / p x ^ 2 := by field_simp
    _ ≤ D / m ^ 2 := by
        refine div_le_div₀ ((by positivity : 0 ≤ |F x - q| * p x).trans hD) hD (by positivity) ?_
        gcongr

/-- The array iteration converges for all components if the density at the roots is not too small. -/
theorem newtonLoop_converges {F p : ℝ → ℝ} {c : ℝ} (h : GoodCDF F p) (hp : Peaked c p) {m : ℝ} (hm : 0 < m)
    (fuel : ℕ) (hR : (1 / 4 : ℝ) ^ fuel * (1 / 2 * p c) / m ^ 2 < newtonTol) (qs : List ℝ)
    (hqs : ∀ q ∈ qs, 0 ≤ q ∧ q ≤ 1 ∧ ∃ xs, F xs = q ∧ m ≤ p xs) :
    ∀ e ∈ newtonLoop F p (fuel + 1) (qs.map fun q => ⟨q, c, true, true⟩), e.failed = false := by
  have hc : F c = 1 / 2 := h.half_of_symm c hp.symm
  have main : ∀ (fuel : ℕ) (D : ℝ) (st : List NEl), (1 / 4 : ℝ) ^ fuel * D / m ^ 2 < newtonTol →
      (∀ e ∈ st, OnSide F c e.q e.x ∧ (∃ xs, F xs = e.q ∧ m ≤ p xs) ∧ |F e.x - e.q| * p e.x ≤ D) →
      ∀ e ∈ newtonLoop F p (fuel + 1) st, e.failed = false := by
    intro fuel
    induction fuel with
    | zero =>
      intro D st hD hst
      unfold newtonLoop
      split_ifs with h1 h2
      · intro e he
        obtain ⟨e0, -, rfl⟩ := List.mem_map.1 he
        rfl
      · intro e he
        obtain ⟨e0, he0, rfl⟩ := List.mem_map.1 he
        exact absurd (h2 e0 he0) (h.pos _).ne'
      · have hall : ∀ e ∈ st.map (NEl.step F p), e.failed = false := by
          intro e he
          obtain ⟨e0, he0, rfl⟩ := List.mem_map.1 he
          obtain ⟨hs, hroot, hd⟩ := hst e0 he0
          rw [step_eq h.pos]
          simp only [decide_eq_false_iff_not, not_le]
          have := newton_step_le h hp hs hm hroot hd
          rw [pow_zero, one_mul] at hD
          linarith
        simp only
        rw [if_pos fun e he _ => hall e he]
        exact hall
    | succ n ih =>
      intro D st hD hst
      rw [newtonLoop]
      split_ifs with h1 h2
      · intro e he
        obtain ⟨e0, -, rfl⟩ := List.mem_map.1 he
        rfl
      · intro e he
        obtain ⟨e0, he0, rfl⟩ := List.mem_map.1 he
        exact absurd (h2 e0 he0) (h.pos _).ne'
      · simp only
        split_ifs with h3
        · intro e he
          refine h3 e he ?_
          obtain ⟨e0, he0, rfl⟩ := List.mem_map.1 he
          rw [step_eq h.pos]
        · refine ih (1 / 4 * D) _ (by rw [pow_succ] at hD; rwa [← mul_assoc]) ?_
          intro e he
          obtain ⟨e0, he0, rfl⟩ := List.mem_map.1 he
          obtain ⟨hs, hroot, hd⟩ := hst e0 he0
          rw [step_eq h.pos]
          exact ⟨(onSide_step h hp hs).1, hroot,
            (newton_quarter h hp hs).trans (mul_le_mul_of_nonneg_left hd (by norm_num))⟩
  refine main fuel _ _ hR ?_
  intro e he
  obtain ⟨q, hq, rfl⟩ := List.mem_map.1 he
  obtain ⟨q0, q1, hroot⟩ := hqs q hq
  refine ⟨⟨fun hq => ⟨le_rfl, by rw [hc]; exact hq⟩, fun hq => ⟨le_rfl, by rw [hc]; exact hq⟩⟩, hroot, ?_⟩
  refine mul_le_mul_of_nonneg_right ?_ (h.pos _).le
  simp only [hc]
  exact abs_le.2 ⟨by linarith, by linarith⟩

/-- The scalar iteration converges. -/
theorem newtonScalar_converges {F p : ℝ → ℝ} {c : ℝ} (h : GoodCDF F p) (hp : Peaked c p) {m : ℝ} (hm : 0 < m)
    (fuel : ℕ) (hR : (1 / 4 : ℝ) ^ fuel * (1 / 2 * p c) / m ^ 2 ≤ newtonTol) {q : ℝ} (q0 : 0 ≤ q) (q1 : q ≤ 1)
    (hroot : ∃ xs, F xs = q ∧ m ≤ p xs) : ∃ x, newtonScalar F p q (fuel + 1) c = .ok x := by
  have hc : F c = 1 / 2 := h.half_of_symm c hp.symm
  have main : ∀ (fuel : ℕ) (D x : ℝ), (1 / 4 : ℝ) ^ fuel * D / m ^ 2 ≤ newtonTol → OnSide F c q x →
      |F x - q| * p x ≤ D → ∃ y, newtonScalar F p q (fuel + 1) x = .ok y := by
    intro fuel
    induction fuel with
    | zero =>
      intro D x hD hs hd
      unfold newtonScalar
      split_ifs with h1 h2
      · exact ⟨_, rfl⟩
      · exact absurd h2 (h.pos _).ne'
      · have := newton_step_le h hp hs hm hroot hd
        rw [pow_zero, one_mul] at hD
        simp only
        rw [if_pos (by rw [sub_sub_cancel_left, abs_neg]; linarith)]
        exact ⟨_, rfl⟩
    | succ n ih =>
      intro D x hD hs hd
      rw [newtonScalar]
      split_ifs with h1 h2
      · exact ⟨_, rfl⟩
      · exact absurd h2 (h.pos _).ne'
      · simp only
        split_ifs with h3
        · exact ⟨_, rfl⟩
        · exact ih (1 / 4 * D) _ (by rw [pow_succ] at hD; rwa [← mul_assoc]) (onSide_step h hp hs).1
            ((newton_quarter h hp hs).trans (mul_le_mul_of_nonneg_left hd (by norm_num)))
  refine main fuel _ c hR ⟨fun hq => ⟨le_rfl, by rw [hc]; exact hq⟩, fun hq => ⟨le_rfl, by rw [hc]; exact hq⟩⟩ ?_
  refine mul_le_mul_of_nonneg_right ?_ (h.pos _).le
  rw [hc]
  exact abs_le.2 ⟨by linarith, by linarith⟩

/-! ## Densities of the components at their quantiles -/

/-- normal distribution: density against the probability of the tail -/
theorem normPdf_tail (l : ℝ) {s : ℝ} (hs : 0 < s) {x : ℝ} (hx : l ≤ x) :
    2 * normPdf l s l * (1 - normCdf l s x) ≤ normPdf l s x := by
  have hgood := norm_good l hs
  have hc : normCdf l s l = 1 / 2 := hgood.half_of_symm l (norm_peaked l hs).symm
  set h := x - l with hh
  have h0 : 0 ≤ h := by linarith
  have hpl := hgood.pos l
  set ρ := normPdf l s x / normPdf l s l with hρ
  -- shifting the tail
  have hshift : ∀ t, l ≤ t → normPdf l s (t + h) ≤ ρ * normPdf l s t := by
    intro t ht
    rw [hρ, div_mul_eq_mul_div, le_div_iff₀ hpl]
    have e1 : (x - l) / s = h / s := rfl
    have e2 : (t + h - l) / s = (t - l) / s + h / s := by ring
    simp only [normPdf]
    rw [e1, e2, sub_self, zero_div, div_mul_div_comm, div_mul_div_comm]
    refine div_le_div_of_nonneg_right ?_ (by positivity)
    rw [← Real.exp_add, ← Real.exp_add, Real.exp_le_exp]
    have : 0 ≤ (t - l) / s * (h / s) := mul_nonneg (div_nonneg (by linarith) hs.le) (div_nonneg h0 hs.le)
    nlinarith
  set J : ℝ → ℝ := fun t => ρ * normCdf l s t - normCdf l s (t + h) with hJ
  have hd : ∀ t, HasDerivAt J (ρ * normPdf l s t - normPdf l s (t + h)) t := by
    intro t
    have h1 : HasDerivAt (fun t : ℝ => t + h) 1 t := (hasDerivAt_id t).add_const h
    have h2 := (hgood.deriv (t + h)).comp t h1
    exact (((hgood.deriv t).const_mul ρ).sub h2).congr_deriv (by simp)
  have hmono : MonotoneOn J (Set.Ici l) := by
    refine monotoneOn_of_deriv_nonneg (convex_Ici l) (fun t _ => (hd t).continuousAt.continuousWithinAt)
      (fun t _ => (hd t).differentiableAt.differentiableWithinAt) fun t ht => ?_
    rw [interior_Ici] at ht
    rw [(hd t).deriv]
    have := hshift t (le_of_lt ht)
    linarith
  have hlim : Tendsto J atTop (𝓝 (ρ * 1 - 1)) :=
    (hgood.top.const_mul ρ).sub (hgood.top.comp (tendsto_atTop_add_const_right _ h tendsto_id))
  have hle : J l ≤ ρ * 1 - 1 := by
    refine ge_of_tendsto hlim ?_
    filter_upwards [eventually_ge_atTop l] with t ht
    exact hmono Set.self_mem_Ici ht ht
  simp only [hJ, hc] at hle
  have e : l + h = x := by rw [hh]; ring
  rw [e] at hle
  have : 1 - normCdf l s x ≤ ρ / 2 := by linarith
  calc 2 * normPdf l s l * (1 - normCdf l s x) ≤ 2 * normPdf l s l * (ρ / 2) := by gcongr
    _ = normPdf l s x := by rw [hρ]; field_simp

/-- Cauchy distribution: density against the probability of the tail -/
theorem cauchyPdf_tail (l : ℝ) {s : ℝ} (hs : 0 < s) {x : ℝ} (hx : l ≤ x) :
    4 * cauchyPdf l s l * (1 - cauchyCdf l s x) ^ 2 ≤ cauchyPdf l s x := by
  have hpi := Real.pi_pos
  set t := (x - l) / s with ht
  have ht0 : 0 ≤ t := div_nonneg (by linarith) hs.le
  set b := 1 - cauchyCdf l s x with hb
  have hb' : Real.pi * b = Real.pi / 2 - Real.arctan t := by
    rw [hb]; unfold cauchyCdf; rw [← ht]; field_simp; ring
  have a0 : 0 ≤ Real.arctan t := Real.arctan_nonneg.2 ht0
  have a1 := Real.arctan_lt_pi_div_two t
  have hsin : 2 * b ≤ Real.cos (Real.arctan t) := by
    rw [← Real.sin_pi_div_two_sub, ← hb']
    have := Real.mul_le_sin (x := Real.pi * b) (by linarith) (by linarith)
    have e : 2 / Real.pi * (Real.pi * b) = 2 * b := by field_simp
    linarith
  have hb0 : 0 ≤ b := by
    have : 0 ≤ Real.pi * b := by linarith
    exact nonneg_of_mul_nonneg_right this hpi
  have h4 : 4 * b ^ 2 ≤ 1 / (1 + t ^ 2) := by
    rw [← Real.cos_sq_arctan]
    nlinarith
  unfold cauchyPdf
  rw [← ht, sub_self, zero_div]
  have e : 4 * (1 / (Real.pi * s * (1 + 0 ^ 2))) * b ^ 2 = 1 / (Real.pi * s) * (4 * b ^ 2) := by
    field_simp; ring
  have e2 : 1 / (Real.pi * s * (1 + t ^ 2)) = 1 / (Real.pi * s) * (1 / (1 + t ^ 2)) := by
    rw [one_div_mul_one_div]
  rw [e, e2]
  exact mul_le_mul_of_nonneg_left h4 (by positivity)

namespace PV
variable {er w d : ℝ}

/-- the two scales of the mixture -/
theorem scales (er w d : ℝ) : (mkPV er w d).normScale = (mkPV er w d).bigGamma / (2 * Real.sqrt (2 * Real.log 2)) ∧
    (mkPV er w d).cauchyScale = (mkPV er w d).bigGamma / 4 := by
  refine ⟨?_, by show 0.5 * (0.5 * (mkPV er w d).bigGamma) = _; ring⟩
  show (mkPV er w d).bigGamma / (2 * Real.sqrt (Real.log 2)) / Real.sqrt 2 = _
  rw [Real.sqrt_mul (by norm_num), div_div]
  congr 1; ring

theorem sqrt_bounds : 1.177 ≤ Real.sqrt (2 * Real.log 2) ∧ Real.sqrt (2 * Real.log 2) ≤ 1.4 := by
  have h1 := Real.log_two_gt_d9
  have h2 := Real.log_two_lt_d9
  exact ⟨Real.le_sqrt_of_sq_le (by norm_num; linarith), Real.sqrt_le_iff.2 ⟨by norm_num, by norm_num; linarith⟩⟩

/-- The peak densities of the components. -/
theorem Ok.peaks (h : Ok w d) : 0.93 / (mkPV er w d).bigGamma ≤ normPdf er (mkPV er w d).normScale er ∧
    normPdf er (mkPV er w d).normScale er ≤ 1.28 / (mkPV er w d).bigGamma ∧
    0.93 / (mkPV er w d).bigGamma ≤ cauchyPdf er (mkPV er w d).cauchyScale er ∧
    cauchyPdf er (mkPV er w d).cauchyScale er ≤ 1.28 / (mkPV er w d).bigGamma := by
  have hG := h.gamma_pos (er := er)
  obtain ⟨e1, e2⟩ := scales er w d
  obtain ⟨b1, b2⟩ := sqrt_bounds
  rw [e1, e2]
  generalize (mkPV er w d).bigGamma = G at hG ⊢
  have hpi := Real.pi_gt_d2
  have hpi' := Real.pi_lt_d2
  have hpi0 := Real.pi_pos
  set S := Real.sqrt (2 * Real.log 2)
  set k := Real.sqrt (2 * Real.pi) with hk
  have k1 : 2.5 ≤ k := Real.le_sqrt_of_sq_le (by norm_num; linarith)
  have k2 : k ≤ 2.51 := Real.sqrt_le_iff.2 ⟨by norm_num, by norm_num; linarith⟩
  have en : normPdf er (G / (2 * S)) er = 2 * S / k / G := by
    unfold normPdf
    rw [← hk, sub_self, zero_div]
    norm_num
    field_simp
  have ec : cauchyPdf er (G / 4) er = 4 / Real.pi / G := by
    unfold cauchyPdf
    rw [sub_self, zero_div]
    norm_num
    field_simp
  rw [en, ec]
  refine ⟨?_, ?_, ?_, ?_⟩ <;> refine div_le_div_of_nonneg_right ?_ hG.le
  · rw [le_div_iff₀ (by linarith)]; linarith
  · rw [div_le_iff₀ (by linarith)]; linarith
  · rw [le_div_iff₀ hpi0]; linarith
  · rw [div_le_iff₀ hpi0]; linarith

/-- The density at the quantiles between `ε` and `1 - ε`. -/
theorem Ok.root (h : Ok w d) {ε q : ℝ} (hε : 0 < ε) (h0 : ε ≤ q) (h1 : q ≤ 1 - ε) :
    ∃ xs, (mkPV er w d).cdfR xs = q ∧ 1.86 * ε ^ 2 / (mkPV er w d).bigGamma ≤ (mkPV er w d).pdfR xs := by
  have hgood := h.good (er := er)
  have hpk := h.peaked (er := er)
  have her : (mkPV er w d).er = er := rfl
  have hη := h.eta_bounds (er := er)
  have hG := h.gamma_pos (er := er)
  -- upper half
  have upper : ∀ x, er ≤ x → ε ≤ 1 - (mkPV er w d).cdfR x → 1.86 * ε ^ 2 / (mkPV er w d).bigGamma ≤ (mkPV er w d).pdfR x := by
    intro x hx htail
    have t1 := normPdf_tail er (h.normScale_pos (er := er)) hx
    have t2 := cauchyPdf_tail er (h.cauchyScale_pos (er := er)) hx
    obtain ⟨p1, -, p2, -⟩ := h.peaks (er := er)
    have c1 : normCdf er (mkPV er w d).normScale x ∈ Set.Icc (1 / 2) 1 := by
      have g := norm_good er (h.normScale_pos (er := er))
      have hh := g.half_of_symm er (norm_peaked er (h.normScale_pos (er := er))).symm
      exact ⟨by rw [← hh]; exact g.strictMono.monotone hx, (g.lt_one x).le⟩
    have c2 : cauchyCdf er (mkPV er w d).cauchyScale x ∈ Set.Icc (1 / 2) 1 := by
      have g := cauchy_good er (h.cauchyScale_pos (er := er))
      have hh := g.half_of_symm er (cauchy_peaked er (h.cauchyScale_pos (er := er))).symm
      exact ⟨by rw [← hh]; exact g.strictMono.monotone hx, (g.lt_one x).le⟩
    simp only [PV.cdfR, her] at htail
    simp only [PV.pdfR, her]
    generalize (mkPV er w d).bigGamma = G at *
    generalize (mkPV er w d).eta = η at *
    generalize normPdf er (mkPV er w d).normScale x = P at *
    generalize cauchyPdf er (mkPV er w d).cauchyScale x = C at *
    generalize normPdf er (mkPV er w d).normScale er = P0 at *
    generalize cauchyPdf er (mkPV er w d).cauchyScale er = C0 at *
    obtain ⟨a, ha⟩ : ∃ a, a = 1 - normCdf er (mkPV er w d).normScale x := ⟨_, rfl⟩
    obtain ⟨b, hb⟩ : ∃ b, b = 1 - cauchyCdf er (mkPV er w d).cauchyScale x := ⟨_, rfl⟩
    rw [← ha] at t1
    rw [← hb] at t2
    have a0 : 0 ≤ a := by rw [ha]; linarith [c1.2]
    have a1 : a ≤ 1 / 2 := by rw [ha]; linarith [c1.1]
    have b0 : 0 ≤ b := by rw [hb]; linarith [c2.2]
    have htail' : ε ≤ (1 - η) * a + η * b := by rw [ha, hb]; linarith
    obtain ⟨η0, η1⟩ := hη
    have hη1 : 0 ≤ 1 - η := by linarith
    set M := 0.93 / G with hM
    have hM0 : 0 < M := by positivity
    have l1 : 2 * M * a ≤ P := (mul_le_mul_of_nonneg_right (by linarith) a0).trans t1
    have l2 : 4 * M * b ^ 2 ≤ C := (mul_le_mul_of_nonneg_right (by linarith) (by positivity)).trans t2
    have e : 1.86 * ε ^ 2 / G = 2 * M * ε ^ 2 := by rw [hM]; ring
    rw [e]
    -- convexity of the square
    have hsq : ((1 - η) * a + η * b) ^ 2 ≤ (1 - η) * a ^ 2 + η * b ^ 2 := by nlinarith [mul_nonneg (mul_nonneg hη1 η0) (sq_nonneg (a - b))]
    have hε2 : ε ^ 2 ≤ ((1 - η) * a + η * b) ^ 2 := by gcongr
    calc 2 * M * ε ^ 2 ≤ 2 * M * ((1 - η) * a ^ 2 + η * b ^ 2) := by gcongr; exact hε2.trans hsq
      _ = (1 - η) * (2 * M * a ^ 2) + η * (2 * M * b ^ 2) := by ring
      _ ≤ (1 - η) * P + η * C := by
          refine add_le_add (mul_le_mul_of_nonneg_left ?_ hη1) (mul_le_mul_of_nonneg_left ?_ η0)
          · have : a ^ 2 ≤ a := by nlinarith
            exact (mul_le_mul_of_nonneg_left this (by positivity)).trans l1
          · have := mul_nonneg (mul_nonneg zero_le_two hM0.le) (sq_nonneg b)
            linarith
  have hhalf := h.half (er := er)
  obtain ⟨xs, hxs⟩ := hgood.surj (q := q) (by linarith) (by linarith)
  refine ⟨xs, hxs, ?_⟩
  rcases le_total er xs with hle | hle
  · exact upper xs hle (by rw [hxs]; linarith)
  · have := upper (2 * er - xs) (by linarith) (by rw [hgood.reflect hpk, hxs]; linarith)
    have e := hpk.symm (er - xs)
    have e1 : er + (er - xs) = 2 * er - xs := by ring
    have e2 : er - (er - xs) = xs := by ring
    rw [e1, e2] at e
    rwa [e] at this

theorem Ok.conv_factor (h : Ok w d) {ε : ℝ} (hε : 0 < ε) (hG : (mkPV er w d).bigGamma ≤ 2.5e22 * ε ^ 4) :
    (1 / 4 : ℝ) ^ 49 * (1 / 2 * (mkPV er w d).pdfR er) / (1.86 * ε ^ 2 / (mkPV er w d).bigGamma) ^ 2 < newtonTol := by
  obtain ⟨-, p1, -, p2⟩ := h.peaks (er := er)
  have hη := h.eta_bounds (er := er)
  have hG0 := h.gamma_pos (er := er)
  have her : (mkPV er w d).er = er := rfl
  have hp : (mkPV er w d).pdfR er ≤ 1.28 / (mkPV er w d).bigGamma := by
    simp only [PV.pdfR, her]
    calc _ ≤ (1 - (mkPV er w d).eta) * (1.28 / (mkPV er w d).bigGamma) + (mkPV er w d).eta * (1.28 / (mkPV er w d).bigGamma) :=
          add_le_add (mul_le_mul_of_nonneg_left p1 (by linarith [hη.2])) (mul_le_mul_of_nonneg_left p2 hη.1)
      _ = _ := by ring
  generalize (mkPV er w d).bigGamma = G at *
  calc (1 / 4 : ℝ) ^ 49 * (1 / 2 * (mkPV er w d).pdfR er) / (1.86 * ε ^ 2 / G) ^ 2
      ≤ (1 / 4 : ℝ) ^ 49 * (1 / 2 * (1.28 / G)) / (1.86 * ε ^ 2 / G) ^ 2 := by gcongr
    _ = (1 / 4 : ℝ) ^ 49 * (0.64 / 1.86 ^ 2) * (G / ε ^ 4) := by field_simp; ring
    _ ≤ (1 / 4 : ℝ) ^ 49 * (0.64 / 1.86 ^ 2) * 2.5e22 := by
        gcongr
        rwa [div_le_iff₀ (by positivity)]
    _ < newtonTol := by unfold newtonTol; norm_num

/-- `ppf` converges for quantiles between `ε` and `1 - ε`: no fallback, no missing values. -/
theorem Ok.ppfArray_central (h : Ok w d) {ε : ℝ} (hε : 0 < ε) (hG : (mkPV er w d).bigGamma ≤ 2.5e22 * ε ^ 4) {qs : List ℝ}
    (hne : qs ≠ []) (hq : ∀ q ∈ qs, ε ≤ q ∧ q ≤ 1 - ε) :
    ∃ xs : List ℝ, (mkPV er w d).ppfArray qs = ⟨some (xs.map .fin), false⟩ := by
  have her : (mkPV er w d).er = er := rfl
  have hG0 := h.gamma_pos (er := er)
  have hconv := newtonLoop_converges (h.good (er := er)) h.peaked (m := 1.86 * ε ^ 2 / (mkPV er w d).bigGamma) (by positivity) 49
    (h.conv_factor hε hG) qs fun q hq' => ⟨by linarith [hq q hq'], by linarith [hq q hq'], h.root hε (hq q hq').1 (hq q hq').2⟩
  have hl := newtonLoop_good (h.good (er := er)) h.peaked 50 qs
  unfold PV.ppfArray newtonArray
  rw [if_pos h.valid, her]
  simp only
  norm_num at hconv
  generalize newtonLoop (mkPV er w d).cdfR (mkPV er w d).pdfR 50 (qs.map fun q => ⟨q, er, true, true⟩) = st at *
  have hany : st.any (fun e => !e.nz && e.failed) = false := by
    rw [List.any_eq_false]
    intro e he
    simp [hconv e he]
  have hall : ¬ st.all (·.failed) = true := by
    intro hall
    rw [List.all_eq_true] at hall
    cases st with
    | nil => exact hne hl.2.1.symm
    | cons e st => have := hall e (by simp); rw [hconv e (by simp)] at this; cases this
  have hf : false ∉ st.map (fun e => !e.failed) := by
    intro h
    obtain ⟨e, he, hf⟩ := List.mem_map.1 h
    rw [hconv e he] at hf
    simp at hf
  rw [hany]
  simp only [Bool.false_eq_true, if_false, hall, hf]
  exact ⟨_, rfl⟩

theorem Ok.ppfScalar_central (h : Ok w d) {ε : ℝ} (hε : 0 < ε) (hG : (mkPV er w d).bigGamma ≤ 2.5e22 * ε ^ 4) {q : ℝ}
    (h0 : ε ≤ q) (h1 : q ≤ 1 - ε) : ∃ x, (mkPV er w d).ppfScalar q = (.fin x, false) := by
  have her : (mkPV er w d).er = er := rfl
  have hG0 := h.gamma_pos (er := er)
  obtain ⟨x, hx⟩ := newtonScalar_converges (h.good (er := er)) h.peaked (m := 1.86 * ε ^ 2 / (mkPV er w d).bigGamma)
    (by positivity) 49 (h.conv_factor hε hG).le (by linarith) (by linarith) (h.root hε h0 h1)
  refine ⟨x, ?_⟩
  unfold PV.ppfScalar
  rw [if_pos h.valid, her, hx]

/-- The total width is at most the sum of the widths of the components. -/
theorem Ok.gamma_le (h : Ok w d) : (mkPV er w d).bigGamma ≤ 2 * Real.sqrt (Real.log 2) * d + w := by
  show pvGamma (2 * Real.sqrt (Real.log 2) * d) w ≤ _
  have hg := h.g0
  have hw := h.w0
  generalize 2 * Real.sqrt (Real.log 2) * d = g at hg ⊢
  rw [pvGamma_eq hg hw]
  calc pvBase g w ^ (0.2 : ℝ) ≤ ((g + w) ^ 5) ^ (0.2 : ℝ) := by
        refine Real.rpow_le_rpow ((by positivity : 0 ≤ g ^ 5).trans (pvBase_ge_left hg hw)) ?_ (by norm_num)
        have e : (g + w) ^ 5 - pvBase g w = (5 - 2.69269) * g ^ 4 * w + (10 - 2.42843) * g ^ 3 * w ^ 2
            + (10 - 4.47163) * g ^ 2 * w ^ 3 + (5 - 0.07842) * g * w ^ 4 := by unfold pvBase; ring
        have : 0 ≤ (5 - 2.69269) * g ^ 4 * w + (10 - 2.42843) * g ^ 3 * w ^ 2
            + (10 - 4.47163) * g ^ 2 * w ^ 3 + (5 - 0.07842) * g * w ^ 4 := by norm_num; positivity
        linarith
    _ = g + w := pow_five_root (by positivity)

end PV

end Ries
