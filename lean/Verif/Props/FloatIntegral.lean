import Verif.Lemmas.ScaledGrid
import Verif.Lemmas.VoigtCdf
import Verif.Props.RoundedReso
import Verif.Lemmas.PreparedGrid

/-! # Property C189: integrals of resonances over their own grids in floating point -/

open MeasureTheory Set

namespace Ries

open KN

variable {u : ℝ} {A : RArith}

/-- values and grid of a Breit-Wigner resonance -/
theorem breitWigner_prepared (hA : A.Accurate u) (hu : 0 ≤ u) (hmono : Monotone A.fl) (hidem : ∀ x, A.fl (A.fl x) = A.fl x) (h1 : A.fl 1 = 1)
    {k : PhysConst} {init inter : Level} {final : Option Level} {r : Reso} {w : ℝ} (hr : mkBreitWigner k init inter final = .ok r)
    (hl : inter.Physical) (hw : inter.width = .ok w) (hpos : 0 < w) (hex : A.fl (inter.exc - init.exc) = inter.exc - init.exc)
    (hN : (4 * inter.channels + 34 : ℝ) * u ≤ 1 / 200) {σ : ℝ → ℝ} (hσ : r.HasSigma σ) (hσ0 : 0 < σ r.er)
    {a b : ℝ} (ha : A.fl a = a) (hb : A.fl b = b) (hab : a < b) (m : ℕ)
    (hm : (12 * (m + 1) + inter.channels + 1 : ℝ) * u * ∫ E, σ E ≤ ∫ E in a..b, σ E) :
    Prepared (A.breitWigner k init inter final) (A.breitWignerGrid k init inter final a b m) σ r.er a b m (1.01 * (4 * inter.channels + 34) * u)
      (u * (26 + 2 * inter.channels + 1.3 * max |a| |b| / w)) := by
  have hNN : (0 : ℝ) ≤ inter.channels := Nat.cast_nonneg _
  have hu1 : u ≤ 1 / 100 := by nlinarith
  have hu1' : u < 1 := by linarith
  have hvals := C94_breit_wigner hA hu hr hl hw hpos hex hN
  obtain ⟨r0, w', h0, hw', rfl⟩ := mkBreitWigner_inv hr
  rw [hw] at hw'; cases hw'
  obtain ⟨ics, eics, -⟩ := RArith.resonance_rel hA hu hu1 hl hex h0
  obtain ⟨wr, ewr, rwr, -⟩ := RArith.width_rel hA.fl hu hu1' hl hw
  have rs := ((Rel.refl (n := 0) hu hu1' 0.5).mul hu1' rwr).round hA.fl hu hu1'
  have hs : (0 : ℝ) < 0.5 * w := by linarith
  have hs' : 0 < A.fl (0.5 * wr) := rs.pos hu1' hs
  have hsig : σ = fun E => r0.ics * cauchyPdf r0.er (0.5 * w) E :=
    sigma_unique hσ fun E => by simp only [Reso.call, cauchyDist, scipyDist, locScale, bind, Except.bind, hs, if_true, Fl.smul]
  have hgood := cauchy_good r0.er hs
  have hI : 0 < r0.ics := by
    rw [hsig] at hσ0
    exact pos_of_mul_pos_left hσ0 (hgood.pos _).le
  have hall : ∫ E, σ E = r0.ics := by rw [hsig, integral_const_mul, hgood.integral, mul_one]
  have hint : ∫ E in a..b, σ E = r0.ics * (cauchyCdf r0.er (0.5 * w) b - cauchyCdf r0.er (0.5 * w) a) := by
    rw [hsig, intervalIntegral.integral_const_mul,
      intervalIntegral.integral_eq_sub_of_hasDerivAt (fun x _ => hgood.deriv x) (hgood.cont.intervalIntegrable _ _)]
  have hn : ((0 + inter.channels + 1 : ℕ) : ℝ) * u ≤ 1 / 200 := by push_cast; nlinarith
  have hs2 := _root_.abs_le.1 (rs.abs_le hu hn)
  rw [abs_of_pos hs] at hs2
  set s' := A.fl (0.5 * wr) with hs'def
  have hslow : 0.4949 * w ≤ s' := by nlinarith [hs2.1]
  have hM : ∀ x, cauchyPdf r0.er s' x ≤ 0.65 / w := by
    intro x
    unfold cauchyPdf
    rw [div_le_div_iff₀ (by positivity) hpos]
    have h3 := Real.pi_gt_d2
    have h4 : 1.554 * w ≤ Real.pi * s' := by nlinarith
    nlinarith [mul_nonneg (mul_nonneg Real.pi_pos.le hs'.le) (sq_nonneg ((x - r0.er) / s'))]
  obtain ⟨g, g1, g2, g3, g4, g5, g6⟩ := scaled_grid (r := ⟨r0.er, 0, 0, 0, ics, cauchyDist, [r0.er, s']⟩) rfl rfl hs hu hu1' rs hn
    (cauchy_good 0 one_pos) cauchy_moment (fun t _ x => by simp [cauchyCdf]) (cauchy_good r0.er hs')
    (fun q q0 q1 => cauchyPpf_spec _ hs' q0 q1) hM hA.fl hmono hidem h1 ha hb m hab (by
      rw [hall, hint, mul_comm r0.ics] at hm
      have := le_of_mul_le_mul_right hm hI
      push_cast
      linarith)
  have hgrid : A.breitWignerGrid k init inter final a b m = .ok (some (g.map .fin)) := by
    simp only [RArith.breitWignerGrid, eics, ewr, bind, Except.bind]
    exact g1
  exact ⟨_, _, r0.ics, g, hgood, cauchy_peaked r0.er hs, hI, hsig, (fun E _ => by
      obtain ⟨t, t', t1, t2, t3⟩ := hvals E
      have : t = σ E := by
        have := t1.symm.trans (hσ E)
        simpa using this
      subst this
      exact ⟨t', t2, t3⟩), hgrid, g2, g3, g4, g5,
    (fun i h => (g6 i h).trans (by
        have : (24 + 1.28 * ((0 + inter.channels + 1 : ℕ) : ℝ) + 2 * (0.65 / w) * max |a| |b|) ≤ 26 + 2 * inter.channels + 1.3 * max |a| |b| / w := by
          push_cast
          have : 2 * (0.65 / w) * max |a| |b| = 1.3 * max |a| |b| / w := by ring
          rw [this]
          nlinarith
        have := mul_le_mul_of_nonneg_left this hu
        linarith))⟩

/-- C189: a Breit-Wigner resonance is constructed from two levels, its grid of equal probability between `a` and `b` with `m + 2` points
is computed, it is evaluated on that grid and the Darboux sums are formed, every single operation rounded. The two sums differ from the
integral of the exact cross section by no more than the error `G` of `m + 1` intervals and a relative error `γ` of the arithmetic. -/
theorem C189_breit_wigner (hA : A.Accurate u) (hu : 0 ≤ u) (hmono : Monotone A.fl) (hidem : ∀ x, A.fl (A.fl x) = A.fl x) (h1 : A.fl 1 = 1)
    {k : PhysConst} {init inter : Level} {final : Option Level} {r : Reso} {w : ℝ} (hr : mkBreitWigner k init inter final = .ok r)
    (hl : inter.Physical) (hw : inter.width = .ok w) (hpos : 0 < w) (hex : A.fl (inter.exc - init.exc) = inter.exc - init.exc)
    (hN : (4 * inter.channels + 34 : ℝ) * u ≤ 1 / 200) {σ : ℝ → ℝ} (hσ : r.HasSigma σ) (hσ0 : 0 < σ r.er)
    {a b : ℝ} (ha : A.fl a = a) (hb : A.fl b = b) (hab : a < b) (m : ℕ)
    (hm : (12 * (m + 1) + inter.channels + 1 : ℝ) * u * ∫ E, σ E ≤ ∫ E in a..b, σ E) {order : ℕ → SumTree} (ho : (order (m + 1)).Covers (m + 1)) :
    let ε := 1.01 * (4 * inter.channels + 34) * u
    let γ := (1 + ε) * (1 + u) ^ ((order (m + 1)).depth + 2) - 1
    let G := 2 * σ r.er / min (σ a) (σ b) *
      ((∫ E in a..b, σ E) / (m + 1) + u * (26 + 2 * inter.channels + 1.3 * max |a| |b| / w) * ∫ E, σ E)
    ∃ L D, A.breitWignerIntegral order k init inter final a b m = .ok (L, D) ∧
      |L - ∫ E in a..b, σ E| ≤ G + γ * ((∫ E in a..b, σ E) + G) ∧
      |L + D - ∫ E in a..b, σ E| ≤ G + (γ + 2 * u * (1 + γ)) * ((∫ E in a..b, σ E) + G) := by
  intro ε γ G
  have hε : 0 ≤ ε := by simp only [ε]; positivity
  obtain ⟨g, L, D, g1, k1, k2⟩ := (breitWigner_prepared hA hu hmono hidem h1 hr hl hw hpos hex hN hσ hσ0 ha hb hab m hm).integral hu hε hA.fl hmono ho
  refine ⟨L, D, ?_, k2⟩
  simp only [RArith.breitWignerIntegral, g1, bind, Except.bind]
  exact k1

theorem normPdf_le {l s d x : ℝ} (hd : 0 < d) (hs : 0 < s) (h : 0.994 * (d / Real.sqrt 2) ≤ s) : normPdf l s x ≤ 0.6 / d := by
  unfold normPdf
  rw [div_le_div_iff₀ (by positivity) hd]
  have h3 : Real.exp (-((x - l) / s) ^ 2 / 2) ≤ 1 := by
    rw [Real.exp_le_one_iff]
    have := sq_nonneg ((x - l) / s)
    linarith
  have h4 : Real.sqrt (2 * Real.pi) = Real.sqrt 2 * Real.sqrt Real.pi := Real.sqrt_mul (by norm_num) _
  have h5 : 1.77 ≤ Real.sqrt Real.pi := Real.le_sqrt_of_sq_le (by nlinarith [Real.pi_gt_d2])
  have h6 : 0 < Real.sqrt 2 := by positivity
  have h7 : 0.994 * d ≤ s * Real.sqrt 2 := by
    have := mul_le_mul_of_nonneg_right h h6.le
    rwa [mul_assoc, div_mul_cancel₀ _ h6.ne'] at this
  have h8 : 1.75 * d ≤ s * Real.sqrt (2 * Real.pi) := by
    rw [h4, ← mul_assoc]
    have h9 : 0 ≤ s * Real.sqrt 2 := by positivity
    have := mul_le_mul h7 h5 (by norm_num) h9
    linarith
  have := mul_le_mul_of_nonneg_right h3 hd.le
  linarith

theorem sq_between {x y z R : ℝ} (h1 : x ≤ y) (h2 : y ≤ z) (hx : x ^ 2 ≤ R) (hz : z ^ 2 ≤ R) : y ^ 2 ≤ R := by
  rcases le_total 0 y with h | h <;> nlinarith

/-- values and grid of a Gauss resonance -/
theorem gauss_prepared (hA : A.Accurate u) (hu : 0 ≤ u) (hmono : Monotone A.fl) (hidem : ∀ x, A.fl (A.fl x) = A.fl x) (h1 : A.fl 1 = 1)
    {k : PhysConst} {init inter : Level} {amu T : ℝ} {final : Option Level} {r : Reso} (hr : mkGauss k init inter amu T final = .ok r)
    (hl : inter.Physical) (hamu : 0 < amu) (hT : 0 < T) (hE : init.exc < inter.exc) (hex : A.fl (inter.exc - init.exc) = inter.exc - init.exc)
    {σ : ℝ → ℝ} (hσ : r.HasSigma σ) (hσ0 : 0 < σ r.er) {a b : ℝ} (ha : A.fl a = a) (hb : A.fl b = b) (hab : a < b) (m : ℕ) {Δ R : ℝ}
    (hΔ : Δ = dopplerWidth k amu T r.er) (hRa : ((a - r.er) / Δ) ^ 2 ≤ R) (hRb : ((b - r.er) / Δ) ^ 2 ≤ R)
    (hN : (inter.channels + 41 + 31 * R : ℝ) * u ≤ 1 / 200)
    (hm : (12 * (m + 1) + 10 : ℝ) * u * ∫ E, σ E ≤ ∫ E in a..b, σ E) :
    Prepared (A.gauss k init inter amu T final) (A.gaussGrid k init inter amu T final a b m) σ r.er a b m
      (1.03 * (inter.channels + 41 + 31 * R) * u) (u * (37 + 1.2 * max |a| |b| / Δ)) := by
  have hNN : (0 : ℝ) ≤ inter.channels := Nat.cast_nonneg _
  have hR0 : 0 ≤ R := (sq_nonneg _).trans hRa
  have hu1 : u ≤ 1 / 100 := by nlinarith
  have hu1' : u < 1 := by linarith
  have hvals := fun E => C95_gauss hA hu hr hl hamu hT hE hex E
  obtain ⟨r0, h0, -, rfl⟩ := mkGauss_inv hr
  have her : r0.er = inter.exc - init.exc := (mkResonance_inv h0).1
  have hpos : 0 < r0.er := by rw [her]; linarith
  have hd : 0 < Δ := hΔ ▸ dopplerWidth_pos k hamu hT hpos
  simp only at hvals hΔ hRa hRb hσ0
  rw [← hΔ] at hvals hσ
  obtain ⟨ics, eics, -⟩ := RArith.resonance_rel hA hu hu1 hl hex h0
  obtain ⟨d', ed, rd⟩ := RArith.doppler_rel (A := A) hA hu hu1' k hamu hT.le r0.er
  rw [← hΔ] at rd
  have r2 := RArith.sqrt_rel (A := A) hA hu hu1' (by norm_num : (0 : ℝ) ≤ 2) (Rel.refl (n := 0) hu hu1' 2)
  have rs := (rd.div hu1' r2).round hA.fl hu hu1'
  have hs : 0 < Δ / Real.sqrt 2 := by positivity
  have hs' : 0 < A.fl (d' / A.sqrt 2) := rs.pos hu1' hs
  have hsig : σ = fun E => r0.ics * normPdf r0.er (Δ / Real.sqrt 2) E :=
    sigma_unique hσ fun E => by simp only [Reso.call, normDist, scipyDist, locScale, bind, Except.bind, hs, if_true, Fl.smul]
  have hgood := norm_good r0.er hs
  have hI : 0 < r0.ics := by
    rw [hsig] at hσ0
    exact pos_of_mul_pos_left hσ0 (hgood.pos _).le
  have hall : ∫ E, σ E = r0.ics := by rw [hsig, integral_const_mul, hgood.integral, mul_one]
  have hint : ∫ E in a..b, σ E = r0.ics * (normCdf r0.er (Δ / Real.sqrt 2) b - normCdf r0.er (Δ / Real.sqrt 2) a) := by
    rw [hsig, intervalIntegral.integral_const_mul,
      intervalIntegral.integral_eq_sub_of_hasDerivAt (fun x _ => hgood.deriv x) (hgood.cont.intervalIntegrable _ _)]
  have hn : ((8 + (0 + 1) + 1 : ℕ) : ℝ) * u ≤ 1 / 200 := by push_cast; nlinarith
  have hs2 := _root_.abs_le.1 (rs.abs_le hu hn)
  rw [abs_of_pos hs] at hs2
  set s' := A.fl (d' / A.sqrt 2) with hs'def
  have hslow : 0.994 * (Δ / Real.sqrt 2) ≤ s' := by nlinarith [hs2.1]
  have hM : ∀ x, normPdf r0.er s' x ≤ 0.6 / Δ := fun x => normPdf_le hd hs' hslow
  obtain ⟨g, g1, g2, g3, g4, g5, g6⟩ := scaled_grid (ppf := fun l s => invOf (normCdf l s)) (r := ⟨r0.er, 0, 0, 0, ics, normDist, [r0.er, s']⟩) rfl rfl hs hu hu1' rs hn
    (norm_good 0 one_pos) norm_moment (fun t ht x => normCdf_std_eq r0.er ht x) (norm_good r0.er hs')
    (fun q q0 q1 => (norm_good _ hs').invOf_spec q0 q1) hM hA.fl hmono hidem h1 ha hb m hab (by
      rw [hall, hint, mul_comm r0.ics] at hm
      have := le_of_mul_le_mul_right hm hI
      push_cast
      linarith)
  have hgrid : A.gaussGrid k init inter amu T final a b m = .ok (some (g.map .fin)) := by
    simp only [RArith.gaussGrid, eics, ed, bind, Except.bind]
    exact g1
  exact ⟨_, _, r0.ics, g, hgood, norm_peaked r0.er hs, hI, hsig, (fun E hEab => by
      have hRE : ((E - r0.er) / Δ) ^ 2 ≤ R := by
        have m1 : (a - r0.er) / Δ ≤ (E - r0.er) / Δ := div_le_div_of_nonneg_right (by linarith [hEab.1]) hd.le
        have m2 : (E - r0.er) / Δ ≤ (b - r0.er) / Δ := div_le_div_of_nonneg_right (by linarith [hEab.2]) hd.le
        exact sq_between m1 m2 hRa hRb
      have hRu := mul_le_mul_of_nonneg_right hRE hu
      obtain ⟨t, t', t1, t2, t3⟩ := hvals E (by linarith)
      have : t = σ E := by
        have := t1.symm.trans (hσ E)
        simpa using this
      subst this
      refine ⟨t', t2, t3.trans (mul_le_mul_of_nonneg_right ?_ (abs_nonneg _))⟩
      linarith), hgrid, g2, g3, g4, g5,
    (fun i h => (g6 i h).trans (by
        have : (24 + 1.28 * ((8 + (0 + 1) + 1 : ℕ) : ℝ) + 2 * (0.6 / Δ) * max |a| |b|) ≤ 37 + 1.2 * max |a| |b| / Δ := by
          push_cast
          have : 2 * (0.6 / Δ) * max |a| |b| = 1.2 * max |a| |b| / Δ := by ring
          rw [this]
          norm_num
        have := mul_le_mul_of_nonneg_left this hu
        linarith))⟩

/-- C189 for a Gauss resonance of Doppler width `Δ`; the arithmetic is less accurate in the tails, `R` bounds the squared distance of the
limits from the resonance in units of `Δ`. -/
theorem C189_gauss (hA : A.Accurate u) (hu : 0 ≤ u) (hmono : Monotone A.fl) (hidem : ∀ x, A.fl (A.fl x) = A.fl x) (h1 : A.fl 1 = 1)
    {k : PhysConst} {init inter : Level} {amu T : ℝ} {final : Option Level} {r : Reso} (hr : mkGauss k init inter amu T final = .ok r)
    (hl : inter.Physical) (hamu : 0 < amu) (hT : 0 < T) (hE : init.exc < inter.exc) (hex : A.fl (inter.exc - init.exc) = inter.exc - init.exc)
    {σ : ℝ → ℝ} (hσ : r.HasSigma σ) (hσ0 : 0 < σ r.er) {a b : ℝ} (ha : A.fl a = a) (hb : A.fl b = b) (hab : a < b) (m : ℕ) {Δ R : ℝ}
    (hΔ : Δ = dopplerWidth k amu T r.er) (hRa : ((a - r.er) / Δ) ^ 2 ≤ R) (hRb : ((b - r.er) / Δ) ^ 2 ≤ R)
    (hN : (inter.channels + 41 + 31 * R : ℝ) * u ≤ 1 / 200)
    (hm : (12 * (m + 1) + 10 : ℝ) * u * ∫ E, σ E ≤ ∫ E in a..b, σ E) {order : ℕ → SumTree} (ho : (order (m + 1)).Covers (m + 1)) :
    let ε := 1.03 * (inter.channels + 41 + 31 * R) * u
    let γ := (1 + ε) * (1 + u) ^ ((order (m + 1)).depth + 2) - 1
    let G := 2 * σ r.er / min (σ a) (σ b) * ((∫ E in a..b, σ E) / (m + 1) + u * (37 + 1.2 * max |a| |b| / Δ) * ∫ E, σ E)
    ∃ L D, A.gaussIntegral order k init inter amu T final a b m = .ok (L, D) ∧
      |L - ∫ E in a..b, σ E| ≤ G + γ * ((∫ E in a..b, σ E) + G) ∧
      |L + D - ∫ E in a..b, σ E| ≤ G + (γ + 2 * u * (1 + γ)) * ((∫ E in a..b, σ E) + G) := by
  intro ε γ G
  have hNN : (0 : ℝ) ≤ inter.channels := Nat.cast_nonneg _
  have hR0 : 0 ≤ R := (sq_nonneg _).trans hRa
  have hε : 0 ≤ ε := by simp only [ε]; positivity
  obtain ⟨g, L, D, g1, k1, k2⟩ := (gauss_prepared hA hu hmono hidem h1 hr hl hamu hT hE hex hσ hσ0 ha hb hab m hΔ hRa hRb hN hm).integral
    hu hε hA.fl hmono ho
  refine ⟨L, D, ?_, k2⟩
  simp only [RArith.gaussIntegral, g1, bind, Except.bind]
  exact k1

/-- addition from left to right -/
def leftSum : ℕ → SumTree
  | 0 => .leaf 0
  | n + 1 => .node (leftSum n) (.leaf (n + 1))

theorem leftSum_covers (n : ℕ) : (leftSum n).leaves = List.range (n + 1) ∧ (leftSum n).depth = n := by
  induction n with
  | zero => exact ⟨rfl, rfl⟩
  | succ n ih =>
    refine ⟨?_, ?_⟩
    · rw [leftSum, SumTree.leaves, ih.1, SumTree.leaves, ← List.range_succ]
    · simp [leftSum, SumTree.depth, ih.2]

/-- Double precision, a resonance at 2 MeV with a width of 4 MeV between 0 and 4 MeV (half of the probability), 1001 points, addition from
left to right: both sums agree with the integral within 0.5 %. -/
example : ∃ r σ L D, mkBreitWigner exConst exGround exExcited none = .ok r ∧ r.HasSigma σ ∧ 0 < σ 2 ∧
    exRArith.breitWignerIntegral (fun n => leftSum (n - 1)) exConst exGround exExcited none 0 4 999 = .ok (L, D) ∧
    |L - ∫ E in (0 : ℝ)..4, σ E| ≤ 0.005 * ∫ E in (0 : ℝ)..4, σ E ∧
    |L + D - ∫ E in (0 : ℝ)..4, σ E| ≤ 0.005 * ∫ E in (0 : ℝ)..4, σ E := by
  obtain ⟨r, hr, hI, he⟩ : ∃ r, mkBreitWigner exConst exGround exExcited none = .ok r ∧ 0 < r.ics ∧ r.er = 2 := by
    obtain ⟨r, h, he, hI⟩ : ∃ r, mkResonance exConst exGround exExcited none noRecoil = .ok r ∧ r.er = 2 ∧ 0 < r.ics := by
      simp [mkResonance, statFactor, fdiv, branchingRatio, integratedCS, exGround, exExcited, groundState, state,
        Level.partialWidths, lookup, bind, Except.bind, noRecoil]
      norm_num
      have := exConst.hbarc_pos
      positivity
    exact ⟨{ r with dist := cauchyDist, params := [r.er, 0.5 * 4] }, by simp [mkBreitWigner, h, exExcited_width, bind, Except.bind], hI, he⟩
  have hc : (exExcited.channels : ℝ) = 2 := by norm_num [Level.channels, exExcited, state]
  have hs : (0 : ℝ) < 0.5 * 4 := by norm_num
  obtain ⟨r0, w', h0, hw', rfl⟩ := mkBreitWigner_inv hr
  rw [exExcited_width] at hw'; cases hw'
  simp only at hI he
  have hσ : Reso.HasSigma { r0 with dist := cauchyDist, params := [r0.er, 0.5 * 4] } (fun E => r0.ics * cauchyPdf r0.er (0.5 * 4) E) := fun E => by
    simp only [Reso.call, cauchyDist, scipyDist, locScale, bind, Except.bind, hs, if_true, Fl.smul]
  have hgood := cauchy_good r0.er hs
  have hall : ∫ E, r0.ics * cauchyPdf r0.er (0.5 * 4) E = r0.ics := by rw [integral_const_mul, hgood.integral, mul_one]
  have hint : ∫ E in (0 : ℝ)..4, r0.ics * cauchyPdf r0.er (0.5 * 4) E = r0.ics / 2 := by
    rw [intervalIntegral.integral_const_mul,
      intervalIntegral.integral_eq_sub_of_hasDerivAt (fun x _ => hgood.deriv x) (hgood.cont.intervalIntegrable _ _), he]
    have := Real.pi_pos
    simp only [cauchyCdf]
    norm_num [Real.arctan_neg, Real.arctan_one]
    field_simp
    norm_num
  have e0 : exRArith.fl 0 = 0 := by exact_mod_cast rn_exact (n := 0) (by norm_num)
  have e1 : exRArith.fl 1 = 1 := by exact_mod_cast rn_exact (n := 1) (by norm_num)
  have e4 : exRArith.fl 4 = 4 := by exact_mod_cast rn_exact (n := 4) (by norm_num)
  obtain ⟨L, D, k1, k2, k3⟩ := C189_breit_wigner exRArith_accurate (by norm_num) rn_monotone rn_idem e1 hr exExcited_physical exExcited_width
    (by norm_num) exExcited_exact (by rw [hc]; norm_num) hσ (mul_pos hI (hgood.pos _)) e0 e4 (by norm_num) 999
    (by rw [hall, hint, hc]; push_cast; linarith) (order := fun n => leftSum (n - 1)) (by
      rw [SumTree.Covers, (leftSum_covers _).1])
  have v : ∀ x, x = 0 ∨ x = 4 → r0.ics * cauchyPdf r0.er (0.5 * 4) x = r0.ics / (4 * Real.pi) := by
    rintro x (rfl | rfl) <;> rw [he] <;> unfold cauchyPdf <;> field_simp <;> norm_num
  have v2 : r0.ics * cauchyPdf r0.er (0.5 * 4) 2 = r0.ics / (2 * Real.pi) := by
    rw [he]; unfold cauchyPdf; field_simp; norm_num
  have hq : 2 * (r0.ics / (2 * Real.pi)) / (r0.ics / (4 * Real.pi)) = 4 := by
    have := Real.pi_pos
    field_simp
  have hdepth : (leftSum (999 + 1 - 1)).depth = 999 := (leftSum_covers 999).2
  have h2 : ({ r0 with dist := cauchyDist, params := [r0.er, 0.5 * 4] } : Reso).er = 2 := he
  have hmax : max |(0 : ℝ)| |4| = 4 := by norm_num
  have hpow : (1 + 1 / 2 ^ 53 : ℝ) ^ (999 + 2) ≤ 1 + 2e-13 := by
    rw [show 999 + 2 = 77 * 13 by norm_num, pow_mul]
    have h77 : (1 + 1 / 2 ^ 53 : ℝ) ^ 77 ≤ 1 + 1e-14 := by norm_num
    exact (pow_le_pow_left₀ (by positivity) h77 13).trans (by norm_num)
  have hpow0 : (1 : ℝ) ≤ (1 + 1 / 2 ^ 53 : ℝ) ^ (999 + 2) := one_le_pow₀ (by norm_num)
  have w0 := v 0 (.inl rfl)
  have w4 := v 4 (.inr rfl)
  have hint' := hint
  rw [he] at hint' v2 w0 w4 hall
  rw [h2, v2, w0, w4, min_self, hq, hall, hint', hc, hdepth, hmax] at k2 k3
  generalize (1 + 1 / 2 ^ 53 : ℝ) ^ (999 + 2) = P at hpow hpow0 k2 k3
  push_cast at k2 k3
  refine ⟨_, _, L, D, hr, hσ, mul_pos hI (hgood.pos _), k1, ?_, ?_⟩
  · rw [hint]
    refine k2.trans ?_
    have := mul_le_mul_of_nonneg_right hpow hI.le
    linarith
  · rw [hint]
    refine k3.trans ?_
    have := mul_le_mul_of_nonneg_right hpow hI.le
    linarith

end Ries
