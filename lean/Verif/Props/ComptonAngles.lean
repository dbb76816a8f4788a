import Verif.Props.KleinNishina

/-! # Property C167: the angular distribution of Compton scattering -/

namespace Ries
open Real KN

/-- the polarized cross section without the quotients -/
theorem dOmega_poly (k : PhysConst) (s : KN) {E : ℝ} (hE : 0 ≤ E) (θ φ : ℝ) :
    s.dOmega k E θ φ = 0.5 * s.scale k * (EpOverE k E θ ^ 3 + EpOverE k E θ -
      2 * EpOverE k E θ ^ 2 * (sin θ ^ 2 * cos φ ^ 2)) := by
  have hr : EpOverE k E θ ≠ 0 := (rat_pos (div_nonneg hE k.me_pos.le) θ).ne'
  simp only [dOmega]
  field_simp

/-- the unpolarized cross section without the quotients -/
theorem dOmegaUnpol_poly (k : PhysConst) (s : KN) {E : ℝ} (hE : 0 ≤ E) (θ : ℝ) :
    s.dOmegaUnpol k E θ = π * s.scale k * (EpOverE k E θ ^ 3 + EpOverE k E θ - EpOverE k E θ ^ 2 * sin θ ^ 2) := by
  have hr : EpOverE k E θ ≠ 0 := (rat_pos (div_nonneg hE k.me_pos.le) θ).ne'
  simp only [dOmegaUnpol]
  field_simp

/-- C167: the azimuthal distribution.  Linearly polarized photons are scattered least along the direction of polarization and
most perpendicular to it, strictly so unless they go straight ahead or back; the distribution does not change when the
azimuthal angle is reflected or turned by half a turn or when the sense of the scattering angle is reversed, and for every
pair of perpendicular directions the sum is the same, namely the unpolarized cross section as returned, divided by pi. -/
theorem C167_azimuth (k : PhysConst) (s : KN) (hZ : 0 < s.Z) (hm : 0 < s.mc2) {E : ℝ} (hE : 0 ≤ E) (θ φ : ℝ) :
    s.dOmega k E θ 0 ≤ s.dOmega k E θ φ ∧ s.dOmega k E θ φ ≤ s.dOmega k E θ (π / 2) ∧
    (s.dOmega k E θ 0 = s.dOmega k E θ φ ↔ sin θ = 0 ∨ sin φ = 0) ∧
    (s.dOmega k E θ φ = s.dOmega k E θ (π / 2) ↔ sin θ = 0 ∨ cos φ = 0) ∧
    s.dOmega k E θ (-φ) = s.dOmega k E θ φ ∧ s.dOmega k E θ (φ + π) = s.dOmega k E θ φ ∧
    s.dOmega k E (-θ) φ = s.dOmega k E θ φ ∧
    s.dOmega k E θ φ + s.dOmega k E θ (φ + π / 2) = s.dOmegaUnpol k E θ / π := by
  have hs := scale_pos k s hZ hm
  have hr : 0 < EpOverE k E θ := rat_pos (div_nonneg hE k.me_pos.le) θ
  have hneg : EpOverE k E (-θ) = EpOverE k E θ := by simp [EpOverE]
  simp only [dOmega_poly k s hE, dOmegaUnpol_poly k s hE, cos_zero, cos_pi_div_two, cos_neg, sin_neg, cos_add_pi,
    cos_add_pi_div_two, hneg]
  set r := EpOverE k E θ
  set A := s.scale k
  have hA : 0 < A * r ^ 2 := by positivity
  have hc := sin_sq_add_cos_sq φ
  have e1 : ∀ c : ℝ, 0.5 * A * (r ^ 3 + r - 2 * r ^ 2 * (sin θ ^ 2 * c)) =
      0.5 * A * (r ^ 3 + r) - A * r ^ 2 * (sin θ ^ 2 * c) := fun c => by ring
  simp only [e1]
  have hp := Real.pi_ne_zero
  have e2 : A * r ^ 2 * (sin θ ^ 2 * 1 ^ 2) = A * r ^ 2 * (sin θ ^ 2 * sin φ ^ 2) + A * r ^ 2 * (sin θ ^ 2 * cos φ ^ 2) := by
    rw [← mul_add, ← mul_add, hc]; ring
  refine ⟨?_, ?_, ⟨fun h => ?_, fun h => ?_⟩, ⟨fun h => ?_, fun h => ?_⟩, trivial, ?_, ?_, ?_⟩
  · have : 0 ≤ A * r ^ 2 * (sin θ ^ 2 * sin φ ^ 2) := by positivity
    linarith
  · have : 0 ≤ A * r ^ 2 * (sin θ ^ 2 * cos φ ^ 2) := by positivity
    nlinarith
  · have h1 : A * r ^ 2 * (sin θ ^ 2 * sin φ ^ 2) = 0 := by linarith
    simpa [hA.ne'] using h1
  · have h1 : sin θ ^ 2 * sin φ ^ 2 = 0 := by rcases h with h | h <;> simp [h]
    have h2 : sin θ ^ 2 * cos φ ^ 2 = sin θ ^ 2 := by
      rw [show cos φ ^ 2 = 1 - sin φ ^ 2 by linarith, mul_sub, h1]; ring
    rw [h2]; ring
  · have h1 : A * r ^ 2 * (sin θ ^ 2 * cos φ ^ 2) = 0 := by nlinarith
    simpa [hA.ne'] using h1
  · have h1 : sin θ ^ 2 * cos φ ^ 2 = 0 := by rcases h with h | h <;> simp [h]
    rw [h1]; ring
  · ring
  · ring
  · rw [neg_sq, show cos φ ^ 2 = 1 - sin φ ^ 2 by linarith]
    field_simp
    ring

/-- C167: no direction is more probable than straight ahead, whatever the polarization; at positive energies straight ahead
is the only direction with this value. -/
theorem C167_forward (k : PhysConst) (s : KN) (hZ : 0 < s.Z) (hm : 0 < s.mc2) {E : ℝ} (hE : 0 < E) (θ φ φ' : ℝ) :
    s.dOmega k E θ φ ≤ s.dOmega k E 0 φ' ∧ (s.dOmega k E θ φ = s.dOmega k E 0 φ' ↔ cos θ = 1) ∧
    s.dOmegaUnpol k E θ ≤ s.dOmegaUnpol k E 0 ∧ (s.dOmegaUnpol k E θ = s.dOmegaUnpol k E 0 ↔ cos θ = 1) := by
  have hs := scale_pos k s hZ hm
  have hx : 0 < E / k.me := div_pos hE k.me_pos
  have hr : 0 < EpOverE k E θ := rat_pos hx.le θ
  have hr1 : EpOverE k E θ ≤ 1 := rat_le_one hx.le θ
  have h0 : EpOverE k E 0 = 1 := by simp [EpOverE]
  have hlt : cos θ ≠ 1 → EpOverE k E θ < 1 := by
    intro h
    have : cos θ < 1 := lt_of_le_of_ne (cos_le_one θ) h
    have := rat_strictAnti this (Set.mem_Ici.2 le_rfl) (Set.mem_Ici.2 hx.le) hx
    simpa [rat, EpOverE] using this
  have heq : cos θ = 1 → EpOverE k E θ = 1 ∧ sin θ = 0 := by
    intro h
    refine ⟨by simp [EpOverE, h], ?_⟩
    have := sin_sq_add_cos_sq θ
    rw [h] at this
    have : sin θ ^ 2 = 0 := by linarith
    simpa using this
  simp only [dOmega_poly k s hE.le, dOmegaUnpol_poly k s hE.le, h0, sin_zero]
  set r := EpOverE k E θ
  have hp := Real.pi_pos
  have b : ∀ q : ℝ, 0 ≤ q → r ^ 3 + r - q ≤ 2 ∧ (r < 1 → r ^ 3 + r - q < 2) := by
    intro q hq
    refine ⟨?_, fun h => ?_⟩
    · have : r ^ 3 ≤ 1 := pow_le_one₀ hr.le hr1
      linarith
    · have : r ^ 3 ≤ 1 := pow_le_one₀ hr.le hr1
      linarith
  have q1 : 0 ≤ 2 * r ^ 2 * (sin θ ^ 2 * cos φ ^ 2) := by positivity
  have q2 : 0 ≤ r ^ 2 * sin θ ^ 2 := by positivity
  have e1 : (1 : ℝ) ^ 3 + 1 - 2 * 1 ^ 2 * (0 ^ 2 * cos φ' ^ 2) = 2 := by norm_num
  have e2 : (1 : ℝ) ^ 3 + 1 - 1 ^ 2 * 0 ^ 2 = 2 := by norm_num
  rw [e1, e2]
  have a1 : 0 < 0.5 * s.scale k := by positivity
  have a2 : 0 < π * s.scale k := by positivity
  refine ⟨mul_le_mul_of_nonneg_left (b _ q1).1 a1.le, ⟨fun h => ?_, fun h => ?_⟩,
    mul_le_mul_of_nonneg_left (b _ q2).1 a2.le, ⟨fun h => ?_, fun h => ?_⟩⟩
  · by_contra hc
    have := (b _ q1).2 (hlt hc)
    exact absurd (mul_left_cancel₀ a1.ne' h) this.ne
  · obtain ⟨h1, h2⟩ := heq h
    rw [h1, h2]; norm_num
  · by_contra hc
    have := (b _ q2).2 (hlt hc)
    exact absurd (mul_left_cancel₀ a2.ne' h) this.ne
  · obtain ⟨h1, h2⟩ := heq h
    rw [h1, h2]; norm_num

/-- C167: in every direction but straight ahead, the unpolarized cross section decreases strictly with the energy.  The polarized
one does so exactly in the directions with `(sin θ cos φ) ^ 4 ≤ 3 / 4`. -/
theorem C167_energy (k : PhysConst) (s : KN) (hZ : 0 < s.Z) (hm : 0 < s.mc2) {θ : ℝ} (hθ : cos θ ≠ 1) :
    StrictAntiOn (fun E => s.dOmegaUnpol k E θ) (Set.Ici 0) ∧
    ∀ φ, StrictAntiOn (fun E => s.dOmega k E θ φ) (Set.Ici 0) ↔ (sin θ * cos φ) ^ 4 ≤ 3 / 4 := by
  have hs := scale_pos k s hZ hm
  have hp := Real.pi_pos
  have hme := k.me_pos
  have hc : cos θ < 1 := lt_of_le_of_ne (cos_le_one θ) hθ
  have hr : ∀ E E', 0 ≤ E → E < E' → EpOverE k E' θ < EpOverE k E θ ∧ 0 < EpOverE k E' θ := by
    intro E E' h0 h1
    have x0 : 0 ≤ E / k.me := div_nonneg h0 k.me_pos.le
    have x1 : E / k.me < E' / k.me := div_lt_div_of_pos_right h1 k.me_pos
    exact ⟨rat_strictAnti hc (Set.mem_Ici.2 x0) (Set.mem_Ici.2 (x0.trans x1.le)) x1, rat_pos (x0.trans x1.le) θ⟩
  have f : ∀ a b q : ℝ, (a ^ 3 + a - 2 * a ^ 2 * q) - (b ^ 3 + b - 2 * b ^ 2 * q) =
      (a - b) * (3 / 4 * (a + b) ^ 2 + 1 - 2 * q * (a + b) + (a - b) ^ 2 / 4) := fun a b q => by ring
  have g : ∀ a b q : ℝ, b < a → q ^ 2 ≤ 3 / 4 → b ^ 3 + b - 2 * b ^ 2 * q < a ^ 3 + a - 2 * a ^ 2 * q := by
    intro a b q hab hq
    have h1 := f a b q
    have h2 : 0 < 3 / 4 * (a + b) ^ 2 + 1 - 2 * q * (a + b) + (a - b) ^ 2 / 4 := by
      have : 0 < (a - b) ^ 2 := by have := sub_pos.2 hab; positivity
      nlinarith [sq_nonneg (3 / 4 * (a + b) - q)]
    nlinarith [mul_pos (sub_pos.2 hab) h2]
  constructor
  · intro E h0 E' h0' h1
    obtain ⟨e1, e2⟩ := hr E E' h0 h1
    simp only [dOmegaUnpol_poly k s h0, dOmegaUnpol_poly k s h0']
    refine mul_lt_mul_of_pos_left ?_ (by positivity)
    have := g _ _ (sin θ ^ 2 / 2) e1 (by nlinarith [sin_sq_le_one θ, sq_nonneg (sin θ)])
    nlinarith
  · intro φ
    have hq : (sin θ * cos φ) ^ 4 = (sin θ ^ 2 * cos φ ^ 2) ^ 2 := by ring
    rw [hq]
    constructor
    · intro h
      by_contra hlt
      push Not at hlt
      have q0 : 0 ≤ sin θ ^ 2 * cos φ ^ 2 := by positivity
      have q1 : sin θ ^ 2 * cos φ ^ 2 ≤ 1 := by
        have := mul_le_mul (sin_sq_le_one θ) (cos_sq_le_one φ) (sq_nonneg _) zero_le_one
        linarith
      have hqe : ∀ E, 0 ≤ E → s.dOmega k E θ φ = 0.5 * s.scale k * (EpOverE k E θ ^ 3 + EpOverE k E θ -
          2 * EpOverE k E θ ^ 2 * (sin θ ^ 2 * cos φ ^ 2)) := fun E hE => dOmega_poly k s hE θ φ
      generalize sin θ ^ 2 * cos φ ^ 2 = q at hlt q0 q1 hqe
      have q2 : 1 / 2 < q := by nlinarith
      -- two energy ratios between which the cross section grows
      obtain ⟨δ, hδ⟩ : ∃ δ, δ = (4 * q ^ 2 / 3 - 1) / 2 := ⟨_, rfl⟩
      have d0 : 0 < δ := by rw [hδ]; linarith
      have d1 : δ ≤ 1 / 6 := by rw [hδ]; nlinarith
      have inv : ∀ r : ℝ, 0 < r → r ≤ 1 → 0 ≤ k.me * (1 / r - 1) / (1 - cos θ) ∧
          EpOverE k (k.me * (1 / r - 1) / (1 - cos θ)) θ = r := by
        intro r r0 r1
        have c0 : 0 < 1 - cos θ := by linarith
        have : 1 ≤ 1 / r := by rw [le_div_iff₀ r0]; linarith
        refine ⟨div_nonneg (mul_nonneg hme.le (by linarith)) c0.le, ?_⟩
        have : k.me * (1 / r - 1) / (1 - cos θ) / k.me * (1 - cos θ) = 1 / r - 1 := by
          field_simp
        rw [EpOverE, this]
        field_simp
        ring
      obtain ⟨i1, i2⟩ := inv (2 * q / 3 + δ) (by positivity) (by linarith)
      obtain ⟨j1, j2⟩ := inv (2 * q / 3 - δ) (by linarith) (by linarith)
      have hlt2 : k.me * (1 / (2 * q / 3 + δ) - 1) / (1 - cos θ) < k.me * (1 / (2 * q / 3 - δ) - 1) / (1 - cos θ) := by
        refine div_lt_div_of_pos_right (mul_lt_mul_of_pos_left ?_ hme) (by linarith)
        have := one_div_lt_one_div_of_lt (a := 2 * q / 3 - δ) (b := 2 * q / 3 + δ) (by linarith) (by linarith)
        linarith
      have := h (Set.mem_Ici.2 i1) (Set.mem_Ici.2 j1) hlt2
      simp only [hqe _ i1, hqe _ j1, i2, j2] at this
      have := lt_of_mul_lt_mul_left this (by positivity)
      have h1 := f (2 * q / 3 + δ) (2 * q / 3 - δ) q
      have h2 : 3 / 4 * (2 * q / 3 + δ + (2 * q / 3 - δ)) ^ 2 + 1 - 2 * q * (2 * q / 3 + δ + (2 * q / 3 - δ)) +
          (2 * q / 3 + δ - (2 * q / 3 - δ)) ^ 2 / 4 = δ ^ 2 - 2 * δ := by rw [hδ]; ring
      rw [h2] at h1
      nlinarith [mul_pos d0 d0]
    · intro hq E h0 E' h0' h1
      obtain ⟨e1, e2⟩ := hr E E' h0 h1
      simp only [dOmega_poly k s h0, dOmega_poly k s h0']
      exact mul_lt_mul_of_pos_left (g _ _ _ e1 hq) (by positivity)

/-- C167: in the direction of polarization, at a right angle to the beam no photons are scattered there at zero energy,
and more and more up to an energy of twice the electron mass. -/
theorem C167_growth (k : PhysConst) (s : KN) (hZ : 0 < s.Z) (hm : 0 < s.mc2) :
    s.dOmega k 0 (π / 2) 0 = 0 ∧ StrictMonoOn (fun E => s.dOmega k E (π / 2) 0) (Set.Icc 0 (2 * k.me)) := by
  have hs := scale_pos k s hZ hm
  have hme := k.me_pos
  refine ⟨by rw [dOmega_poly k s le_rfl]; norm_num [EpOverE], ?_⟩
  intro E h0 E' h0' h1
  simp only [dOmega_poly k s h0.1, dOmega_poly k s h0'.1, sin_pi_div_two, cos_zero]
  refine mul_lt_mul_of_pos_left ?_ (by positivity)
  simp only [EpOverE, cos_pi_div_two, sub_zero, mul_one]
  have x0 : 0 ≤ E / k.me := div_nonneg h0.1 hme.le
  have x1 : E / k.me < E' / k.me := div_lt_div_of_pos_right h1 hme
  have x2 : E' / k.me ≤ 2 := by rw [div_le_iff₀ hme]; exact h0'.2
  have a1 : 1 / (1 + E' / k.me) < 1 / (1 + E / k.me) := one_div_lt_one_div_of_lt (by positivity) (by linarith)
  have a2 : 1 / 3 ≤ 1 / (1 + E' / k.me) := one_div_le_one_div_of_le (by linarith) (by linarith)
  have a3 : 1 / (1 + E / k.me) ≤ 1 := by rw [div_le_one (by positivity)]; linarith
  set a := 1 / (1 + E / k.me)
  set b := 1 / (1 + E' / k.me)
  have h2 : (b ^ 3 + b - 2 * b ^ 2 * (1 ^ 2 * 1 ^ 2)) - (a ^ 3 + a - 2 * a ^ 2 * (1 ^ 2 * 1 ^ 2)) =
      (a - b) * (2 * (a + b) - (a ^ 2 + a * b + b ^ 2) - 1) := by ring
  have h3 : 0 < 2 * (a + b) - (a ^ 2 + a * b + b ^ 2) - 1 := by
    nlinarith [mul_nonneg (sub_nonneg.2 a3) (sub_nonneg.2 a1.le), mul_nonneg (sub_nonneg.2 a3) (sub_nonneg.2 a2),
      mul_nonneg (sub_nonneg.2 a1.le) (sub_nonneg.2 a2)]
  nlinarith [mul_pos (sub_pos.2 a1) h3]

/-- The hypotheses of C167 are met by copper at 1 MeV and a right angle, where the azimuthal distribution is not constant. -/
example : (0 : ℝ) < (electron exConst 29).Z ∧ 0 < (electron exConst 29).mc2 ∧ cos (π / 2) ≠ 1 ∧ sin (π / 2) ≠ 0 ∧
    (sin (π / 2) * cos (π / 3)) ^ 4 ≤ 3 / 4 ∧ ¬ (sin (π / 2) * cos 0) ^ 4 ≤ 3 / 4 := by
  refine ⟨by norm_num [electron], exConst.me_pos, by simp, by simp, by rw [sin_pi_div_two, cos_pi_div_three]; norm_num,
    by norm_num⟩

end Ries
