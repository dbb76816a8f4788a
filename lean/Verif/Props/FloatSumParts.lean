import Verif.Props.FloatSum
import Verif.Props.FloatIntegral
import Verif.Props.FloatPVIntegral
import Verif.Props.RoundedGrid
import Verif.Props.RoundedKN

/-! # Property C190: the constituents of sums in floating point -/

open MeasureTheory Set

namespace Ries

open KN

variable {u : ℝ} {A : RArith}

/-- A constant is evaluated without error, and its grid resolves it exactly. -/
theorem C190_constant {fl : ℝ → ℝ} (hu : 0 ≤ u) (hfl : Rounding u fl) (hmono : Monotone fl) {a b : ℝ} (hab : a ≤ b)
    (ha : fl a = a) (hb : fl b = b) (m : ℕ) (hm : 4 * u * (m + 1) ≤ 1) {k : ℝ} (hk : 0 ≤ k) :
    Resolves fl a b m 0 0 (fun _ => k) (.const k) := by
  obtain ⟨-, h2, h3, h4, -⟩ := C93_rounded_grid hu hfl hmono hab ha hb m hm
  exact ⟨fun E _ => ⟨k, rfl, by simp⟩, fun _ _ => hk, continuousOn_const, linspaceR fl a b m, rfl, List.mem_of_head? h2, List.mem_of_getLast? h3,
    h4.2, refined_const _ _ _ _⟩

/-- A nonresonant cross section (a table, Compton scattering) that is computed with the relative error `ε` and whose variation is bounded by
the increase of a function `V`; its grid divides the interval into equal pieces. -/
theorem C190_nonresonant {fl : ℝ → ℝ} (hu : 0 ≤ u) (hfl : Rounding u fl) (hmono : Monotone fl) {a b : ℝ} (hab : a ≤ b)
    (ha : fl a = a) (hb : fl b = b) (m : ℕ) (hm : 4 * u * (m + 1) ≤ 1) {f : ℝ → Except Err Fl} {σ V : ℝ → ℝ} {ε : ℝ}
    (hf : ∀ E ∈ Icc a b, ∃ y, f E = .ok (.fin y) ∧ |y - σ E| ≤ ε * σ E) (hV : ∀ s ∈ Icc a b, ∀ t ∈ Icc a b, s ≤ t → |σ t - σ s| ≤ V t - V s)
    (hc : ContinuousOn σ (Icc a b)) (h0 : ∀ E ∈ Icc a b, 0 ≤ σ E) :
    Resolves fl a b m ε (((b - a) / (m + 1) + 18 * u * max |a| |b|) * (V b - V a)) σ (.leaf (Leaf.computed f (constGridR fl))) := by
  obtain ⟨h1, h2, h3, h4, h5⟩ := C93_rounded_grid hu hfl hmono hab ha hb m hm
  have hm0 : (0 : ℝ) < m + 1 := by positivity
  refine ⟨fun E hE => ?_, h0, hc, linspaceR fl a b m, ?_, List.mem_of_head? h2, List.mem_of_getLast? h3, h4.2, ?_⟩
  · obtain ⟨y, hy, he⟩ := hf E hE
    exact ⟨y, by simp [Obj.callR, Leaf.computed, hy, Bind.bind, Except.bind, Except.map], he⟩
  · have h2 : ¬ ((m : ℤ) + 2 < 2) := by omega
    have h3 : ((m : ℤ) + 2 - 2).toNat = m := by omega
    simp only [Obj.probGridR, Leaf.computed, h2, if_false, h3, constGridR, Bind.bind, Except.bind]
  · refine refined_variation hc hV ?_ h2 h3 h4 fun i hi => ?_
    · have : 0 ≤ (b - a) / (m + 1) := div_nonneg (by linarith) hm0.le
      have : 0 ≤ max |a| |b| := (abs_nonneg a).trans (le_max_left _ _)
      positivity
    · have e1 := abs_le.1 (h5 i (by omega))
      have e2 := abs_le.1 (h5 (i + 1) hi)
      push_cast at e2
      linarith [e1.1, e2.2]

/-- Compton scattering between two positive energies: the total cross section decreases with the energy. -/
theorem C190_compton {A : KN.Arith} (hA : A.Accurate u) (hu : 0 ≤ u) (hu1 : u ≤ 1e-4) (hmono : Monotone A.fl) (k : PhysConst) (s : KN) (hZ : 0 < s.Z)
    (hmc : 0 < s.mc2) {a b : ℝ} (h0 : 0 < a) (hab : a ≤ b) (ha : A.fl a = a) (hb : A.fl b = b) (m : ℕ) (hm : 4 * u * (m + 1) ≤ 1) :
    Resolves A.fl a b m (150 * u * (1 + s.mc2 / a) ^ 3 * (1 + Real.log (1 + 2 * b / s.mc2)))
      (((b - a) / (m + 1) + 18 * u * max |a| |b|) * (s.total k a - s.total k b)) (s.total k)
      (.leaf (Leaf.computed (fun E => .ok (.fin (totalR A k s E))) (constGridR A.fl))) := by
  obtain ⟨c1, c2, -⟩ := C44_total k s hZ hmc
  have hpos : ∀ E ∈ Icc a b, 0 < E := fun E hE => h0.trans_le hE.1
  have key := C190_nonresonant hu hA.fl hmono hab ha hb m hm (f := fun E => .ok (.fin (totalR A k s E))) (σ := s.total k)
    (V := fun E => - s.total k E) (ε := 150 * u * (1 + s.mc2 / a) ^ 3 * (1 + Real.log (1 + 2 * b / s.mc2))) (fun E hE => by
      have hE0 := hpos E hE
      refine ⟨_, rfl, (C84_partial hA hu hu1 k s hZ hmc E hE0).trans (mul_le_mul_of_nonneg_right ?_ (c1 E hE0).le)⟩
      have h2E : 0 ≤ 2 * E / s.mc2 := by positivity
      have l0 : 0 ≤ Real.log (1 + 2 * E / s.mc2) := Real.log_nonneg (by linarith)
      have l1 : Real.log (1 + 2 * E / s.mc2) ≤ Real.log (1 + 2 * b / s.mc2) := by
        refine Real.log_le_log (by positivity) ?_
        have := div_le_div_of_nonneg_right (show 2 * E ≤ 2 * b by linarith [hE.2]) hmc.le
        linarith
      have l2 : s.mc2 / E ≤ s.mc2 / a := div_le_div_of_nonneg_left hmc.le h0 hE.1
      gcongr) (fun s' hs' t ht hst => by
      have := (c2.antitoneOn (hpos s' hs') (hpos t ht) hst)
      rw [abs_of_nonpos (by linarith)]
      linarith) (by
      unfold total
      refine ContinuousOn.mul (ContinuousOn.mul continuousOn_const ?_) ?_
      · exact ContinuousOn.zpow₀ (by fun_prop) _ fun E hE => .inl (div_pos (hpos E hE) hmc).ne'
      · refine ContinuousOn.add (ContinuousOn.div (by fun_prop) (by fun_prop) fun E hE => ?_) (ContinuousOn.mul (by fun_prop) (ContinuousOn.log (by fun_prop) fun E hE => ?_))
        · have := div_pos (hpos E hE) hmc
          positivity
        · have := div_pos (hpos E hE) hmc
          positivity) (fun E hE => (c1 E (hpos E hE)).le)
  simpa [sub_eq_add_neg, add_comm] using key

/-- lead between 1 and 4 MeV in double precision, 1001 points -/
example : ∃ ε ≤ 1e-12, ∃ B ≤ 0.0031 * (electron exConst 82).total exConst 1, Resolves rnArith.fl 1 4 999 ε B ((electron exConst 82).total exConst)
    (.leaf (Leaf.computed (fun E => .ok (.fin (totalR rnArith exConst (electron exConst 82) E))) (constGridR rnArith.fl))) := by
  have e1 : rnArith.fl 1 = 1 := by exact_mod_cast rn_exact (n := 1) (by norm_num)
  have e4 : rnArith.fl 4 = 4 := by exact_mod_cast rn_exact (n := 4) (by norm_num)
  have hZ : 0 < (electron exConst 82).Z := by norm_num [electron]
  have hm : 0 < (electron exConst 82).mc2 := by norm_num [electron, exConst]
  obtain ⟨h1, -⟩ := C44_total exConst (electron exConst 82) hZ hm
  refine ⟨_, ?_, _, ?_, C190_compton rnArith_double.toAccurate (by norm_num) (by norm_num) rn_monotone exConst (electron exConst 82) hZ hm one_pos
    (by norm_num) e1 e4 999 (by norm_num)⟩
  · have : Real.log (1 + 2 * 4 / (electron exConst 82).mc2) ≤ 16 := by
      refine (Real.log_le_sub_one_of_pos (by positivity)).trans ?_
      norm_num [electron, exConst]
    norm_num [electron, exConst] at *
    linarith
  · have := h1 1 one_pos
    have := h1 4 (by norm_num)
    norm_num
    linarith

/-- A Breit-Wigner resonance. -/
theorem C190_breit_wigner (hA : A.Accurate u) (hu : 0 ≤ u) (hmono : Monotone A.fl) (hidem : ∀ x, A.fl (A.fl x) = A.fl x) (h1 : A.fl 1 = 1)
    {k : PhysConst} {init inter : Level} {final : Option Level} {r : Reso} {w : ℝ} (hr : mkBreitWigner k init inter final = .ok r)
    (hl : inter.Physical) (hw : inter.width = .ok w) (hpos : 0 < w) (hex : A.fl (inter.exc - init.exc) = inter.exc - init.exc)
    (hN : (4 * inter.channels + 34 : ℝ) * u ≤ 1 / 200) {σ : ℝ → ℝ} (hσ : r.HasSigma σ) (hσ0 : 0 < σ r.er)
    {a b : ℝ} (ha : A.fl a = a) (hb : A.fl b = b) (hab : a < b) (m : ℕ)
    (hm : (12 * (m + 1) + inter.channels + 1 : ℝ) * u * ∫ E, σ E ≤ ∫ E in a..b, σ E) :
    Resolves A.fl a b m (1.01 * (4 * inter.channels + 34) * u)
      (2 * σ r.er / min (σ a) (σ b) * ((∫ E in a..b, σ E) / (m + 1) + u * (26 + 2 * inter.channels + 1.3 * max |a| |b| / w) * ∫ E, σ E)) σ
      (.leaf (Leaf.computed (A.breitWigner k init inter final) (A.breitWignerGrid k init inter final))) :=
  (breitWigner_prepared hA hu hmono hidem h1 hr hl hw hpos hex hN hσ hσ0 ha hb hab m hm).resolves

/-- A Gauss resonance. -/
theorem C190_gauss (hA : A.Accurate u) (hu : 0 ≤ u) (hmono : Monotone A.fl) (hidem : ∀ x, A.fl (A.fl x) = A.fl x) (h1 : A.fl 1 = 1)
    {k : PhysConst} {init inter : Level} {amu T : ℝ} {final : Option Level} {r : Reso} (hr : mkGauss k init inter amu T final = .ok r)
    (hl : inter.Physical) (hamu : 0 < amu) (hT : 0 < T) (hE : init.exc < inter.exc) (hex : A.fl (inter.exc - init.exc) = inter.exc - init.exc)
    {σ : ℝ → ℝ} (hσ : r.HasSigma σ) (hσ0 : 0 < σ r.er) {a b : ℝ} (ha : A.fl a = a) (hb : A.fl b = b) (hab : a < b) (m : ℕ) {Δ R : ℝ}
    (hΔ : Δ = dopplerWidth k amu T r.er) (hRa : ((a - r.er) / Δ) ^ 2 ≤ R) (hRb : ((b - r.er) / Δ) ^ 2 ≤ R)
    (hN : (inter.channels + 41 + 31 * R : ℝ) * u ≤ 1 / 200)
    (hm : (12 * (m + 1) + 10 : ℝ) * u * ∫ E, σ E ≤ ∫ E in a..b, σ E) :
    Resolves A.fl a b m (1.03 * (inter.channels + 41 + 31 * R) * u)
      (2 * σ r.er / min (σ a) (σ b) * ((∫ E in a..b, σ E) / (m + 1) + u * (37 + 1.2 * max |a| |b| / Δ) * ∫ E, σ E)) σ
      (.leaf (Leaf.computed (A.gauss k init inter amu T final) (A.gaussGrid k init inter amu T final))) :=
  (gauss_prepared hA hu hmono hidem h1 hr hl hamu hT hE hex hσ hσ0 ha hb hab m hΔ hRa hRb hN hm).resolves

/-- The level at 2 MeV with a Doppler width of 1 MeV between 1 and 3 MeV in double precision, 1001 points. -/
example : ∃ (r : Reso) (σ : ℝ → ℝ) (T ε B : ℝ), mkGauss exConst exGround exExcited 1 T none = .ok r ∧ r.HasSigma σ ∧ 0 < σ 2 ∧
    dopplerWidth exConst 1 T 2 = 1 ∧ ε ≤ 1e-14 ∧ Resolves rn 1 3 999 ε B σ
      (.leaf (Leaf.computed (exRArith.gauss exConst exGround exExcited 1 T none) (exRArith.gaussGrid exConst exGround exExcited 1 T none))) := by
  have hT : 0 < exConst.u / (8 * exConst.kB * 1e-6) := div_pos exConst.u_pos (by have := exConst.kB_pos; positivity)
  have hd : dopplerWidth exConst 1 (exConst.u / (8 * exConst.kB * 1e-6)) 2 = 1 := by
    have h1 := exConst.kB_pos
    have h2 := exConst.u_pos
    have : 2 * exConst.kB * 1e-6 * (exConst.u / (8 * exConst.kB * 1e-6)) / (1 * exConst.u) = 0.5 ^ 2 := by field_simp; norm_num
    rw [dopplerWidth, this, Real.sqrt_sq (by norm_num)]
    norm_num
  obtain ⟨r0, h0, he, hI⟩ : ∃ r, mkResonance exConst exGround exExcited none noRecoil = .ok r ∧ r.er = 2 ∧ 0 < r.ics := by
    simp [mkResonance, statFactor, fdiv, branchingRatio, integratedCS, exGround, exExcited, groundState, state,
      Level.partialWidths, lookup, bind, Except.bind, noRecoil]
    norm_num
    have := exConst.hbarc_pos
    positivity
  set T := exConst.u / (8 * exConst.kB * 1e-6)
  have hr : mkGauss exConst exGround exExcited 1 T none = .ok { r0 with dist := normDist, params := [r0.er, 1 / Real.sqrt 2] } := by
    have hne : (1 : ℝ) * exConst.u ≠ 0 := by have := exConst.u_pos; positivity
    simp [mkGauss, h0, getDopplerWidth, bind, Except.bind, he, hd, exConst.u_pos.ne']
  have hs : (0 : ℝ) < 1 / Real.sqrt 2 := by positivity
  have hσ : Reso.HasSigma { r0 with dist := normDist, params := [r0.er, 1 / Real.sqrt 2] } (fun E => r0.ics * normPdf r0.er (1 / Real.sqrt 2) E) :=
    fun E => by simp only [Reso.call, normDist, scipyDist, locScale, bind, Except.bind, hs, if_true, Fl.smul]
  have hgood := norm_good r0.er hs
  have hall : ∫ E, r0.ics * normPdf r0.er (1 / Real.sqrt 2) E = r0.ics := by rw [integral_const_mul, hgood.integral, mul_one]
  have hlow : ∀ E ∈ Icc (1 : ℝ) 3, 0.1 ≤ normPdf r0.er (1 / Real.sqrt 2) E := by
    intro E hE
    have q : ((E - r0.er) / (1 / Real.sqrt 2)) ^ 2 ≤ 2 := by
      rw [div_pow, div_pow, one_pow, Real.sq_sqrt (by norm_num), he]
      have : (E - 2) ^ 2 ≤ 1 := by nlinarith [hE.1, hE.2]
      linarith
    have h1 : Real.exp (-1) ≤ Real.exp (-((E - r0.er) / (1 / Real.sqrt 2)) ^ 2 / 2) := Real.exp_le_exp.2 (by linarith)
    have h2 : 0.36 ≤ Real.exp (-1) := by linarith [Real.exp_neg_one_gt_d9]
    have h3 : 1 / Real.sqrt 2 * Real.sqrt (2 * Real.pi) ≤ 2 := by
      rw [Real.sqrt_mul (by norm_num), ← mul_assoc, one_div, inv_mul_cancel₀ (by positivity), one_mul, Real.sqrt_le_left (by norm_num)]
      linarith [Real.pi_lt_d2]
    unfold normPdf
    rw [le_div_iff₀ (by positivity)]
    linarith
  have hint : 0.2 * r0.ics ≤ ∫ E in (1 : ℝ)..3, r0.ics * normPdf r0.er (1 / Real.sqrt 2) E := by
    have hc : Continuous fun E => r0.ics * normPdf r0.er (1 / Real.sqrt 2) E := continuous_const.mul hgood.cont
    have := intervalIntegral.integral_mono_on (μ := volume) (by norm_num : (1 : ℝ) ≤ 3) (f := fun _ => 0.1 * r0.ics) (by simp)
      (hc.intervalIntegrable _ _) fun E hE => by
        have := mul_le_mul_of_nonneg_left (hlow E hE) hI.le
        linarith
    simp only [intervalIntegral.integral_const, smul_eq_mul] at this
    linarith
  have hc : (exExcited.channels : ℝ) = 2 := by norm_num [Level.channels, exExcited, state]
  have e1 : exRArith.fl 1 = 1 := by exact_mod_cast rn_exact (n := 1) (by norm_num)
  have e3 : exRArith.fl 3 = 3 := by exact_mod_cast rn_exact (n := 3) (by norm_num)
  refine ⟨_, _, T, _, _, hr, hσ, mul_pos hI (hgood.pos _), hd, ?_, C190_gauss exRArith_accurate (by norm_num) rn_monotone rn_idem e1 hr
    exExcited_physical one_pos hT (by norm_num [exGround, exExcited, groundState, state]) exExcited_exact hσ (mul_pos hI (hgood.pos _)) e1 e3 (by norm_num) 999
    (Δ := 1) (R := 1) (by simp only [he, hd]) (by simp only [he]; norm_num) (by simp only [he]; norm_num) (by rw [hc]; norm_num) (by
      rw [hall]
      refine le_trans ?_ hint
      push_cast
      linarith)⟩
  rw [hc]
  norm_num

/-- A pseudo-Voigt resonance. -/
theorem C190_pseudo_voigt {fl Fc pc F p : ℝ → ℝ} {u η ε : ℝ} {r : Reso} {w d : ℝ} (h : FloatReso r w d fl Fc pc F p u η ε) (mix : ℝ → Fl)
    {σ : ℝ → ℝ} (hσ : r.HasSigma σ) (hσ0 : 0 < σ r.er) {a b : ℝ} (ha : 1.001 * ε ≤ F a) (hb : F b ≤ 1 - 1.001 * ε) (m : ℕ)
    (hm : 2 * (3.9e-8 / max w (2 * Real.sqrt (Real.log 2) * d) + 2 * η + 5 * u) * ((m + 1) * ∫ E, σ E) < ∫ E in a..b, σ E) :
    Resolves fl a b m (u + η + u * η)
      (2 * σ r.er / min (σ a) (σ b) *
        ((∫ E in a..b, σ E) / (m + 1) + 2 * (3.9e-8 / max w (2 * Real.sqrt (Real.log 2) * d) + 2 * η + 5 * u) * ∫ E, σ E)) σ
      (.leaf (Leaf.computed (fun E => ((r.computed fl Fc pc mix).call E).map (Fl.rounded fl))
        fun a b m => (r.computed fl Fc pc mix).probGridF fl (.lims a b) m)) :=
  (pseudoVoigt_prepared h mix hσ hσ0 ha hb m hm).resolves (grid := fun a b m => (r.computed fl Fc pc mix).probGridF fl (.lims a b) m)

/-- The level of 20 meV at room temperature in double precision with correctly rounded functions, 41 points. -/
example : ∃ (r : Reso) (d : ℝ) (F p : ℝ → ℝ) (a b : ℝ) (σ : ℝ → ℝ) (ε B : ℝ), r.HasSigma σ ∧ 0 < (∫ E in a..b, σ E) ∧ ε ≤ 1e-15 ∧
    FloatReso r 2e-8 d rn (fun x => rn (F x)) (fun x => rn (p x)) F p (1 / 2 ^ 53) (1 / 2 ^ 53) 0.02 ∧
    Resolves rn a b 39 ε B σ (.leaf (Leaf.computed (fun E => ((r.computed rn (fun x => rn (F x)) (fun x => rn (p x)) fun _ => .nan).call E).map (Fl.rounded rn))
      fun a b m => (r.computed rn (fun x => rn (F x)) (fun x => rn (p x)) fun _ => .nan).probGridF rn (.lims a b) m)) := by
  obtain ⟨r, d, F, p, a, b, h, hI, -, ha, hb, hd⟩ := exThin_float
  obtain ⟨hok, hF, hs, -, -, -⟩ := h.facts
  have hs0 : 0.5 ≤ Real.sqrt (Real.log 2) := by
    rw [Real.le_sqrt (by norm_num) (by linarith [Real.log_two_gt_d9])]
    norm_num
    linarith [Real.log_two_gt_d9]
  have hacc : 3.9e-8 / max 2e-8 (2 * Real.sqrt (Real.log 2) * d) ≤ 0.00976 := by
    have : 4e-6 ≤ 2 * Real.sqrt (Real.log 2) * d := by nlinarith
    have h4 : 4e-6 ≤ max 2e-8 (2 * Real.sqrt (Real.log 2) * d) := this.trans (le_max_right _ _)
    rw [div_le_iff₀ (by linarith)]
    linarith
  have hm : 2 * (3.9e-8 / max 2e-8 (2 * Real.sqrt (Real.log 2) * d) + 2 * (1 / 2 ^ 53) + 5 * (1 / 2 ^ 53)) * ((39 : ℕ) + 1) < F b - F a := by
    rw [ha, hb]
    push_cast
    norm_num at *
    linarith
  have hgood := hok.good (er := r.er)
  have hall : ∫ E, r.ics * (mkPV r.er 2e-8 d).pdfR E = r.ics := by rw [integral_const_mul, hgood.integral, mul_one]
  have hint : ∫ E in a..b, r.ics * (mkPV r.er 2e-8 d).pdfR E = r.ics * (F b - F a) := by
    rw [intervalIntegral.integral_const_mul,
      intervalIntegral.integral_eq_sub_of_hasDerivAt (fun x _ => hgood.deriv x) (hgood.cont.intervalIntegrable _ _), hF]
  refine ⟨r, d, F, p, a, b, _, _, _, hs, ?_, ?_, h, C190_pseudo_voigt h (fun _ => .nan) hs (mul_pos hI (hgood.pos _)) (by rw [ha]; norm_num)
    (by rw [hb]; norm_num) 39 (by
      rw [hall, hint]
      have := mul_lt_mul_of_pos_left hm hI
      linarith)⟩
  · rw [hint, ha, hb]
    exact mul_pos hI (by norm_num)
  · norm_num

/-- a larger error is allowed -/
theorem Resolves.mono {fl : ℝ → ℝ} {a b : ℝ} {m : ℕ} {ε ε' B : ℝ} {f : ℝ → ℝ} {o : Obj} (h : Resolves fl a b m ε B f o) (hε : ε ≤ ε') :
    Resolves fl a b m ε' B f o :=
  ⟨fun E hE => by
    obtain ⟨y, h1, h2⟩ := h.value E hE
    exact ⟨y, h1, h2.trans (mul_le_mul_of_nonneg_right hε (h.nonneg E hE))⟩, h.nonneg, h.cont, h.grid⟩

/-- the resonance at 2 MeV with a width of 4 MeV between 0 and 4 MeV in double precision -/
theorem exExcited_resolves : ∃ r σ, mkBreitWigner exConst exGround exExcited none = .ok r ∧ r.HasSigma σ ∧ 0 < σ 2 ∧
    (0 < ∫ E in (0 : ℝ)..4, σ E) ∧ Continuous σ ∧ (∀ g, Obj.probGridR rn (.leaf (Leaf.computed (exRArith.breitWigner exConst exGround exExcited none)
      (exRArith.breitWignerGrid exConst exGround exExcited none))) 0 4 999 = .ok g → g.length = 1001) ∧
    Resolves rn 0 4 999 1e-14 (0.0045 * ∫ E in (0 : ℝ)..4, σ E) σ
      (.leaf (Leaf.computed (exRArith.breitWigner exConst exGround exExcited none) (exRArith.breitWignerGrid exConst exGround exExcited none))) := by
  obtain ⟨r, hr, hI, he⟩ : ∃ r, mkBreitWigner exConst exGround exExcited none = .ok r ∧ 0 < r.ics ∧ r.er = 2 := by
    obtain ⟨r, h, he, hI⟩ : ∃ r, mkResonance exConst exGround exExcited none noRecoil = .ok r ∧ r.er = 2 ∧ 0 < r.ics := by
      simp [mkResonance, statFactor, fdiv, branchingRatio, integratedCS, exGround, exExcited, groundState, state,
        Level.partialWidths, lookup, bind, Except.bind, noRecoil]
      norm_num
      have := exConst.hbarc_pos
      positivity
    exact ⟨{ r with dist := cauchyDist, params := [r.er, 0.5 * 4] }, by simp [mkBreitWigner, h, exExcited_width, bind, Except.bind], hI, he⟩
  have hc : (exExcited.channels : ℝ) = 2 := by norm_num [Level.channels, exExcited, state]
  have hs : (0 : ℝ) < 0.5 * 4 := by norm_num
  obtain ⟨r0, w', h0, hw', rfl⟩ := mkBreitWigner_inv hr
  rw [exExcited_width] at hw'; cases hw'
  simp only at hI he
  have hσ : Reso.HasSigma { r0 with dist := cauchyDist, params := [r0.er, 0.5 * 4] } (fun E => r0.ics * cauchyPdf r0.er (0.5 * 4) E) := fun E => by
    simp only [Reso.call, cauchyDist, scipyDist, locScale, bind, Except.bind, hs, if_true, Fl.smul]
  have hgood := cauchy_good r0.er hs
  have hall : ∫ E, r0.ics * cauchyPdf r0.er (0.5 * 4) E = r0.ics := by rw [integral_const_mul, hgood.integral, mul_one]
  have hint : ∫ E in (0 : ℝ)..4, r0.ics * cauchyPdf r0.er (0.5 * 4) E = r0.ics / 2 := by
    rw [intervalIntegral.integral_const_mul,
      intervalIntegral.integral_eq_sub_of_hasDerivAt (fun x _ => hgood.deriv x) (hgood.cont.intervalIntegrable _ _), he]
    have := Real.pi_pos
    simp only [cauchyCdf]
    norm_num [Real.arctan_neg, Real.arctan_one]
    field_simp
    norm_num
  have e0 : exRArith.fl 0 = 0 := by exact_mod_cast rn_exact (n := 0) (by norm_num)
  have e1 : exRArith.fl 1 = 1 := by exact_mod_cast rn_exact (n := 1) (by norm_num)
  have e4 : exRArith.fl 4 = 4 := by exact_mod_cast rn_exact (n := 4) (by norm_num)
  have key := C190_breit_wigner exRArith_accurate (by norm_num) rn_monotone rn_idem e1 hr exExcited_physical exExcited_width
    (by norm_num) exExcited_exact (by rw [hc]; norm_num) hσ (mul_pos hI (hgood.pos _)) e0 e4 (by norm_num) 999
    (by rw [hall, hint, hc]; push_cast; linarith)
  have v : ∀ x, x = 0 ∨ x = 4 → r0.ics * cauchyPdf r0.er (0.5 * 4) x = r0.ics / (4 * Real.pi) := by
    rintro x (rfl | rfl) <;> rw [he] <;> unfold cauchyPdf <;> field_simp <;> norm_num
  have v2 : r0.ics * cauchyPdf r0.er (0.5 * 4) r0.er = r0.ics / (2 * Real.pi) := by
    unfold cauchyPdf; field_simp; norm_num
  have hq : 2 * (r0.ics / (2 * Real.pi)) / (r0.ics / (4 * Real.pi)) = 4 := by
    have := Real.pi_pos
    field_simp
  have hmax : max |(0 : ℝ)| |4| = 4 := by norm_num
  refine ⟨_, _, hr, hσ, mul_pos hI (hgood.pos _), by rw [hint]; linarith, continuous_const.mul hgood.cont, ?_, ?_⟩
  · obtain ⟨_, _, _, g, -, -, -, -, -, g1, g2, -⟩ := breitWigner_prepared exRArith_accurate (by norm_num) rn_monotone rn_idem e1 hr exExcited_physical
      exExcited_width (by norm_num) exExcited_exact (by rw [hc]; norm_num) hσ (mul_pos hI (hgood.pos _)) e0 e4 (by norm_num) 999
      (by rw [hall, hint, hc]; push_cast; linarith)
    intro g' hg'
    simp only [Obj.probGridR, Leaf.computed, Bind.bind, Except.bind] at hg'
    norm_num at hg'
    rw [show Int.toNat 999 = 999 from rfl, g1] at hg'
    simp only [Except.ok.injEq] at hg'
    rw [← hg', List.length_map, g2]
  simp only at key
  rw [v2, v 0 (.inl rfl), v 4 (.inr rfl), min_self, hq, hall, hint, hc, hmax] at key
  rw [hint]
  obtain ⟨g, g1, g2, g3, g4, g5⟩ := (key.mono (ε' := 1e-14) (by norm_num)).grid
  exact ⟨(key.mono (ε' := 1e-14) (by norm_num)).value, key.nonneg, key.cont, g, g1, g2, g3, g4,
    fun x n hx h0 hn hg c _ => (g5 x n hx h0 hn hg c).trans (by push_cast; linarith)⟩

/-- Double precision: twice the resonance plus half of a constant of the same size, between 0 and 4 MeV, added from left to right. The two
computed sums over the common grid agree with the integral of the exact sum within 0.5 %. -/
example : ∃ (r : Reso) (σ : ℝ → ℝ) (L D : ℝ), mkBreitWigner exConst exGround exExcited none = .ok r ∧ r.HasSigma σ ∧ 0 < σ 2 ∧
    let I := ∫ E in (0 : ℝ)..4, (2 * σ E + 0.5 * σ 2)
    Obj.gridIntegralR rn (fun n => leftSum (n - 1)) (.wsum [.leaf (Leaf.computed (exRArith.breitWigner exConst exGround exExcited none)
      (exRArith.breitWignerGrid exConst exGround exExcited none)), .const (σ 2)] [.num 2, .num 0.5]) 0 4 999 = .ok (L, D) ∧
    0 < I ∧ |L - I| ≤ 0.005 * I ∧ |L + D - I| ≤ 0.005 * I := by
  obtain ⟨r, σ, hr, hσ, h2, hI, hcont, hlen, hres⟩ := exExcited_resolves
  have e0 : rn 0 = 0 := by exact_mod_cast rn_exact (n := 0) (by norm_num)
  have e4 : rn 4 = 4 := by exact_mod_cast rn_exact (n := 4) (by norm_num)
  have hfl : Rounding (1 / 2 ^ 53) rn := exRArith_accurate.fl
  have hconst := C190_constant (by norm_num) hfl rn_monotone (by norm_num : (0 : ℝ) ≤ 4) e0 e4 999 (by norm_num) h2.le
  set o := Obj.leaf (Leaf.computed (exRArith.breitWigner exConst exGround exExcited none) (exRArith.breitWignerGrid exConst exGround exExcited none))
  let ps : List Part := [⟨o, 2, σ, 0.0045 * ∫ E in (0 : ℝ)..4, σ E⟩, ⟨.const (σ 2), 0.5, fun _ => σ 2, 0⟩]
  obtain ⟨g, L, D, g1, -, g3, g4, g5⟩ := C190_integral (by norm_num) (by norm_num) hfl rn_monotone (by norm_num : (0 : ℝ) < 4) (ps := ps) (by simp [ps])
    (ε := 1e-14) (m := 999) (by
      intro P hP
      simp only [ps, List.mem_cons, List.not_mem_nil, or_false] at hP
      rcases hP with rfl | rfl
      · exact ⟨by norm_num, hres⟩
      · exact ⟨by norm_num, hconst.mono (by norm_num)⟩) (order := fun n => leftSum (n - 1)) (fun n hn => by
        have := (leftSum_covers (n - 1)).1
        rw [Nat.sub_add_cancel hn] at this
        rw [SumTree.Covers, this])
  have hpts : g.length ≤ 2 * 1001 := by
    have := C190_points (N := 1001) (ps := ps) (by
      intro P hP g hg
      simp only [ps, List.mem_cons, List.not_mem_nil, or_false] at hP
      rcases hP with rfl | rfl
      · exact (hlen g hg).le
      · obtain ⟨k1, -⟩ := C93_rounded_grid (by norm_num) hfl rn_monotone (by norm_num : (0 : ℝ) ≤ 4) e0 e4 999 (by norm_num)
        simp only [Obj.probGridR, Except.ok.injEq] at hg
        rw [← hg, List.length_map, k1]) g1
    simpa [ps] using this
  have htot : Part.total ps = fun E => 2 * σ E + 0.5 * σ 2 := by funext E; simp [Part.total, ps]
  have hB : Part.bounds ps = 2 * (0.0045 * ∫ E in (0 : ℝ)..4, σ E) := by simp [Part.bounds, ps]
  have hint : ∫ E in (0 : ℝ)..4, (2 * σ E + 0.5 * σ 2) = 2 * (∫ E in (0 : ℝ)..4, σ E) + 2 * σ 2 := by
    have hc : Continuous fun E => 2 * σ E := continuous_const.mul hcont
    rw [intervalIntegral.integral_add (hc.intervalIntegrable _ _) (by simp), intervalIntegral.integral_const_mul]
    simp
    ring
  simp only [htot, hB, hint] at g4 g5
  refine ⟨r, σ, L, D, hr, hσ, h2, ?_⟩
  rw [hint]
  refine ⟨g3, by linarith, ?_⟩
  generalize ∫ E in (0 : ℝ)..4, σ E = I at *
  have hpow : (1 + 1 / 2 ^ 53 : ℝ) ^ (ps.length + (leftSum (g.length - 1 - 1)).depth + 3) ≤ 1 + 1e-12 := by
    rw [(leftSum_covers _).2]
    have h1 : ps.length + (g.length - 1 - 1) + 3 ≤ 77 * 27 := by simp only [ps, List.length_cons, List.length_nil]; omega
    refine (pow_le_pow_right₀ (by norm_num) h1).trans ?_
    rw [pow_mul]
    have h77 : (1 + 1 / 2 ^ 53 : ℝ) ^ 77 ≤ 1 + 1e-14 := by norm_num
    exact (pow_le_pow_left₀ (by positivity) h77 27).trans (by norm_num)
  have hpow0 : (1 : ℝ) ≤ (1 + 1 / 2 ^ 53 : ℝ) ^ (ps.length + (leftSum (g.length - 1 - 1)).depth + 3) := one_le_pow₀ (by norm_num)
  generalize (1 + 1 / 2 ^ 53 : ℝ) ^ (ps.length + (leftSum (g.length - 1 - 1)).depth + 3) = P at hpow hpow0 g4 g5
  have hγ : (1 + 1e-14) * P - 1 ≤ 2e-12 := by norm_num at *; linarith
  have hγ0 : 0 ≤ (1 + 1e-14) * P - 1 := by norm_num at *; linarith
  set γ := (1 + 1e-14) * P - 1
  have hZ : 0 ≤ 2 * I + 2 * σ 2 + 2 * (0.0045 * I) := by linarith
  have m1 := mul_le_mul_of_nonneg_right hγ hZ
  have m2 : (γ + 2 * (1 / 2 ^ 53) * (1 + γ)) * (2 * I + 2 * σ 2 + 2 * (0.0045 * I)) ≤ 3e-12 * (2 * I + 2 * σ 2 + 2 * (0.0045 * I)) :=
    mul_le_mul_of_nonneg_right (by linarith) hZ
  exact ⟨g4.trans (by linarith), g5.trans (by linarith)⟩

end Ries
