import Verif.Lemmas.RoundedFlux
import Verif.Lemmas.RnIdem
import Verif.Lemmas.RnMono

/-! # C193: attenuation of a photon beam and the rates in layers in floating point -/

namespace Ries

open RArith

/-- **C193** The computed photon flux lies between 0 and 1, is 1 at the surface, does not increase with the depth, and agrees with the exact
exponential attenuation up to an absolute error that does not depend on the thickness of the target (apart from underflow). -/
theorem C193_flux {A : RArith} {u ω : ℝ} (h : A.Underflowing u ω) (hu : 0 ≤ u) (hu1 : u ≤ 1 / 1000) (hω : 0 ≤ ω) {ε E x a b a' b' : ℝ} {nr r : Callable}
    (hε : 0 ≤ ε) (hε1 : ε ≤ 1 / 100) (hx : 0 ≤ x) (ha : 0 ≤ a) (hb : 0 ≤ b) (hn : nr E = .ok a') (hr : r E = .ok b')
    (ea : |a' - a| ≤ ε * a) (eb : |b' - b| ≤ ε * b) :
    ∃ p : ℝ → ℝ, (∀ ρ, A.layerPhi E ρ nr r x = .ok (p ρ)) ∧ p 0 = 1 ∧ AntitoneOn p (Set.Ici 0) ∧
      ∀ ρ, 0 ≤ ρ → 0 ≤ p ρ ∧ p ρ ≤ 1 ∧ |p ρ - Real.exp (-(a + x * b) * ρ)| ≤ 1.1 * ε + 8 * u + 5 * (ω * (ρ + 1)) := by
  obtain ⟨c0, ec⟩ := h.coeff hu hu1 hω hε hε1 hx ha hb ea eb
  have hc : 0 ≤ a + x * b := add_nonneg ha (mul_nonneg hx hb)
  refine ⟨_, fun ρ => by simp only [RArith.layerPhi, hn, hr, Bind.bind, Except.bind]; rfl, ?_, ?_, fun ρ hρ => ?_⟩
  · simp [h.zero, h.exp_zero]
  · intro ρ₁ _ ρ₂ _ h12
    exact h.exp_mono (h.mono (by nlinarith))
  · refine ⟨(h.factor_mem c0 hρ).1, (h.factor_mem c0 hρ).2, ?_⟩
    have := h.factor_err hu hu1 hω hε hε1 hc c0 hρ hρ le_rfl ec (by simp)
    rw [neg_mul (a + x * b) ρ]
    simpa using this

/-- **C193** The computed rate of resonance absorption is not negative and agrees with the exact one up to a small fraction of the rate without
attenuation. -/
theorem C193_rate {A : RArith} {u ω : ℝ} (h : A.Underflowing u ω) (hu : 0 ≤ u) (hu1 : u ≤ 1 / 1000) (hω : 0 ≤ ω) {ε E x a b a' b' ρ : ℝ}
    {nr r : Callable} (hε : 0 ≤ ε) (hε1 : ε ≤ 1 / 100) (hx : 0 ≤ x) (ha : 0 ≤ a) (hb : 0 ≤ b) (hn : nr E = .ok a') (hr : r E = .ok b')
    (ea : |a' - a| ≤ ε * a) (eb : |b' - b| ≤ ε * b) (hρ : 0 ≤ ρ) :
    ∃ v, A.layerAlpha E ρ nr r x = .ok v ∧ 0 ≤ v ∧
      |v - x * b * Real.exp (-(a + x * b) * ρ)| ≤ (2.2 * ε + 11 * u + 5 * (ω * (ρ + 1))) * (x * b) + 3 * ω := by
  obtain ⟨v, v', h1, h2, _, _, h5, h6⟩ := h.alpha_err hu hu1 hω (nr := fun _ => .ok a) (r := fun _ => .ok b) hε hε1 hx rfl rfl
    ⟨a, a', rfl, hn, ha, ea⟩ ⟨b, b', rfl, hr, hb, eb⟩ hρ hρ (le_refl (0 : ℝ)) (by simp)
  simp only [Ries.layerAlpha, Ries.layerPhi, Bind.bind, Except.bind, Except.ok.injEq] at h1
  subst h1
  refine ⟨v', h2, h5, ?_⟩
  simpa using h6

/-- **C193** The same for the beam in a target of `tests/test_Phi_alpha_plot.py`. -/
theorem C193_beam {A : RArith} {u ω : ℝ} (h : A.Underflowing u ω) (hu : 0 ≤ u) (hu1 : u ≤ 1 / 1000) (hω : 0 ≤ ω) {ε E k s k' s' : ℝ}
    {B : BeamInTarget} (hε : 0 ≤ ε) (hε1 : ε ≤ 1 / 100) (hk : 0 ≤ k) (hs : 0 ≤ s) (hB : B.kappa E = .ok k') (hBs : B.sigma E = .ok s')
    (ek : |k' - k| ≤ ε * k) (es : |s' - s| ≤ ε * s) :
    ∃ p v : ℝ → ℝ, (∀ Z, A.beamFlux B Z E = .ok (p Z) ∧ A.beamAbsorption B Z E = .ok (v Z)) ∧ p 0 = 1 ∧
      AntitoneOn p (Set.Ici 0) ∧ AntitoneOn v (Set.Ici 0) ∧
      ∀ Z, 0 ≤ Z → 0 ≤ p Z ∧ p Z ≤ 1 ∧ 0 ≤ v Z ∧ |p Z - Real.exp (-(k + s) * Z)| ≤ 1.1 * ε + 8 * u + 5 * (ω * (Z + 1)) ∧
        |v Z - s * Real.exp (-(k + s) * Z)| ≤ (2.2 * ε + 10 * u + 5 * (ω * (Z + 1))) * s + ω := by
  have hk' := RArith.Underflowing.near_nonneg hε1 hk ek
  have hs' := RArith.Underflowing.near_nonneg hε1 hs es
  have c0 : 0 ≤ A.fl (k' + s') := h.fl_nonneg (add_nonneg hk' hs')
  have ec := h.total_err hu hu1 hω hε hε1 hk hs ek (es.trans (by nlinarith [mul_nonneg hu hs, mul_nonneg (mul_nonneg hε hu) hs]))
  have hc := add_nonneg hk hs
  have hanti : AntitoneOn (fun Z => A.exp (A.fl (-A.fl (k' + s') * Z))) (Set.Ici 0) :=
    fun Z₁ _ Z₂ _ h12 => h.exp_mono (h.mono (by nlinarith))
  refine ⟨fun Z => A.exp (A.fl (-A.fl (k' + s') * Z)), fun Z => A.fl (s' * A.exp (A.fl (-A.fl (k' + s') * Z))),
    fun Z => ⟨by simp only [RArith.beamFlux, hB, hBs, Bind.bind, Except.bind],
      by simp only [RArith.beamAbsorption, RArith.beamFlux, hB, hBs, Bind.bind, Except.bind]⟩, by simp [h.zero, h.exp_zero], hanti, ?_, fun Z hZ => ?_⟩
  · intro Z₁ h1 Z₂ h2 h12
    exact h.mono (mul_le_mul_of_nonneg_left (hanti h1 h2 h12) hs')
  · have m := h.factor_mem c0 hZ
    have k1 := h.factor_err hu hu1 hω hε hε1 hc c0 hZ hZ le_rfl ec (by simp)
    rw [neg_mul (k + s) Z]
    have k2 := h.times_err hu hu1 (S' := s') (δ := ε) (w := 0) hs le_rfl m.1 m.2 (by linarith) le_rfl (by simpa using es) k1
    refine ⟨m.1, m.2, h.fl_nonneg (mul_nonneg hs' m.1), by simpa using k1, k2.trans ?_⟩
    have : (ε + (1.1 * ε + 8 * u + 3 * ((k + s) * 0) + 5 * (ω * (Z + 1))) + 1.1 * u) * s ≤ (2.2 * ε + 10 * u + 5 * (ω * (Z + 1))) * s := by
      apply mul_le_mul_of_nonneg_right _ hs
      norm_num at *
      linarith
    norm_num at *
    linarith

set_option maxHeartbeats 400000 in
/-- **C193** The computed rates per energy and areal density in the four layers of `notebooks/layer_target.ipynb` agree with the exact ones up
to a small fraction of the rate of the isotope without attenuation. `K` bounds the optical thickness of the target for both isotopes;
it enters because the positions of the boundaries between the layers are rounded. -/
theorem C193_layers {A : RArith} {u ω : ℝ} (h : A.Underflowing u ω) (hu : 0 ≤ u) (hu1 : u ≤ 1 / 1000) (hω : 0 ≤ ω) {ε E a b₁ b₂ R K ρ : ℝ}
    {T t : LayerTarget} (hε : 0 ≤ ε) (hε1 : ε ≤ 1 / 100) (hT : T.Computed ε E t) (ha : T.nr E = .ok a) (h₁ : T.s116 E = .ok b₁)
    (h₂ : T.s112 E = .ok b₂) (x₁ : 0 ≤ T.x116) (x₂ : 0 ≤ T.x112) (dI : 0 ≤ T.dI) (dII : 0 ≤ T.dII) (dIII : 0 ≤ T.dIII)
    (hR : T.rhoIII ≤ R) (hρ0 : 0 ≤ ρ) (hρ : ρ ≤ R) (hK₁ : (a + T.x116 * b₁) * R ≤ K) (hK₂ : (a + T.x112 * b₂) * R ≤ K) (hK : u * K ≤ 1 / 1000)
    (hω1 : ω ≤ u * R) (hω2 : 10 * (ω * (R + 1)) ≤ u) :
    (∃ v v', T.dNI E ρ = .ok v ∧ A.dNI t E ρ = .ok v' ∧ |v' - v| ≤ (6 * ε + 50 * u + 160 * (u * K)) * (T.x116 * b₁) + 5 * ω) ∧
    (T.rhoI ≤ ρ → A.rhoI t ≤ ρ →
      ∃ v v', T.dNII E ρ = .ok v ∧ A.dNII t E ρ = .ok v' ∧ |v' - v| ≤ (6 * ε + 50 * u + 160 * (u * K)) * (T.x112 * b₂) + 5 * ω) ∧
    (T.rhoII ≤ ρ → A.rhoII t ≤ ρ →
      ∃ v v', T.dNIII E ρ = .ok v ∧ A.dNIII t E ρ = .ok v' ∧ |v' - v| ≤ (6 * ε + 50 * u + 160 * (u * K)) * (T.x116 * b₁) + 5 * ω) ∧
    (T.rhoIII ≤ ρ → A.rhoIII t ≤ ρ →
      ∃ v v', T.dNIV E ρ = .ok v ∧ A.dNIV t E ρ = .ok v' ∧ |v' - v| ≤ (6 * ε + 50 * u + 160 * (u * K)) * (T.x112 * b₂) + 5 * ω) := by
  have hR0 : 0 ≤ R := hρ0.trans hρ
  have uR : 0 ≤ u * R := mul_nonneg hu hR0
  have uuR : u * (u * R) ≤ 1 / 1000 * (u * R) := by gcongr
  have nI : 0 ≤ T.rhoI := by simpa [LayerTarget.rhoI, LayerTarget.rho0] using dI
  have nII : T.rhoI ≤ T.rhoII := by simpa [LayerTarget.rhoII] using dII
  have nIII : T.rhoII ≤ T.rhoIII := by simpa [LayerTarget.rhoIII] using dIII
  have e1 : |A.rhoI t - T.rhoI| ≤ 2 * (u * R) := by
    have := h.bound_err hu (r := 0) (r' := 0) (d := T.dI) (R := R) (e := 0) (by simpa using dI)
      (by have := nI; simp only [LayerTarget.rhoI, LayerTarget.rho0] at *; linarith) (by simp)
    simp only [RArith.rhoI, LayerTarget.rhoI, LayerTarget.rho0, hT.dI]
    linarith
  have e2 : |A.rhoII t - T.rhoII| ≤ 4.1 * (u * R) := by
    have := h.bound_err hu (r := T.rhoI) (r' := A.rhoI t) (d := T.dII) (R := R) (by linarith) (by show T.rhoII ≤ R; linarith) e1
    simp only [RArith.rhoII, LayerTarget.rhoII, hT.dII]
    norm_num at this ⊢
    linarith only [this, uR, uuR, hω1]
  have e3 : |A.rhoIII t - T.rhoIII| ≤ 6.3 * (u * R) := by
    have := h.bound_err hu (r := T.rhoII) (r' := A.rhoII t) (d := T.dIII) (R := R) (by linarith) (by show T.rhoIII ≤ R; linarith) e2
    simp only [RArith.rhoIII, LayerTarget.rhoIII, hT.dIII]
    norm_num at this ⊢
    linarith only [this, uR, uuR, hω1]
  have mI : 0 ≤ A.rhoI t := h.fl_nonneg (by simpa [LayerTarget.rho0, hT.dI] using dI)
  have mII : A.rhoI t ≤ A.rhoII t := by
    have : A.fl (A.rhoI t) ≤ A.rhoII t := h.mono (by rw [hT.dII]; linarith)
    rwa [show A.fl (A.rhoI t) = A.rhoI t from h.idem _] at this
  have mIII : A.rhoII t ≤ A.rhoIII t := by
    have : A.fl (A.rhoII t) ≤ A.rhoIII t := h.mono (by rw [hT.dIII]; linarith)
    rwa [show A.fl (A.rhoII t) = A.rhoII t from h.idem _] at this
  -- a computed depth in a layer
  have depth : ∀ {y z y' z' e f : ℝ}, y ≤ z → 0 ≤ y → z ≤ R → y' ≤ z' → |y' - y| ≤ e → |z' - z| ≤ f → e + f ≤ 10.4 * (u * R) →
      0 ≤ z - y ∧ 0 ≤ A.fl (z' - y') ∧ |A.fl (z' - y') - (z - y)| ≤ 13 * (u * R) ∧ A.fl (z' - y') ≤ 1.02 * R := by
    intro y z y' z' e f hyz hy hzR hyz' ey ez hef
    have k1 := h.fl (z' - y')
    rw [abs_of_nonneg (sub_nonneg.2 hyz')] at k1
    have b1 := abs_le.1 ey
    have b2 := abs_le.1 ez
    have k2 : z' - y' ≤ R + 10.4 * (u * R) := by linarith
    have k3 : u * (z' - y') ≤ u * (R + 10.4 * (u * R)) := by gcongr
    have k4 : |(z' - y') - (z - y)| ≤ 10.4 * (u * R) := by
      rw [abs_le]
      constructor <;> linarith
    have k5 := abs_add_le (A.fl (z' - y') - (z' - y')) ((z' - y') - (z - y))
    rw [sub_add_sub_cancel] at k5
    have k6 : |A.fl (z' - y') - (z - y)| ≤ 13 * (u * R) := by
      norm_num at k3 k4 ⊢
      linarith only [k1, k3, k4, k5, uR, uuR, hω1]
    have k7 : u * R ≤ 1 / 1000 * R := by gcongr
    have k8 := (abs_le.1 k6).2
    refine ⟨by linarith, h.fl_nonneg (sub_nonneg.2 hyz'), k6, ?_⟩
    norm_num
    linarith only [k7, k8, hy, hzR, hR0]
  obtain ⟨a₁, _, q1, _, a0, _⟩ := id hT.nr
  obtain rfl : a = a₁ := by rw [ha] at q1; exact Except.ok.inj q1
  obtain ⟨b₃, _, q2, _, b0, _⟩ := id hT.s116
  obtain rfl : b₁ = b₃ := by rw [h₁] at q2; exact Except.ok.inj q2
  obtain ⟨b₄, _, q3, _, b0', _⟩ := id hT.s112
  obtain rfl : b₂ = b₄ := by rw [h₂] at q3; exact Except.ok.inj q3
  set S₁ := T.x116 * b₁ with hS₁
  set S₂ := T.x112 * b₂ with hS₂
  have S10 : 0 ≤ S₁ := mul_nonneg x₁ b0
  have S20 : 0 ≤ S₂ := mul_nonneg x₂ b0'
  have uK1 : u * ((a + S₁) * R) ≤ u * K := by gcongr
  have uK2 : u * ((a + S₂) * R) ≤ u * K := by gcongr
  have uK0 : 0 ≤ u * K := le_trans (mul_nonneg hu (mul_nonneg (add_nonneg a0 S10) hR0)) uK1
  have hω3 : ω ≤ 1 / 10 * u := by nlinarith [mul_nonneg hω hR0]
  have l1 : 1.1 * ε + 9 * u + 39 * (u * K) ≤ 3.3 * ε + 29.3 * u + 117 * (u * K) := by norm_num; linarith only [hε, hu, uK0]
  have l2 : 1.1 * ε + 9 * u + 39 * (u * K) + (1.1 * ε + 9 * u + 39 * (u * K)) + u + ω ≤ 3.3 * ε + 29.3 * u + 117 * (u * K) := by
    norm_num; linarith only [hε, hu, uK0, hω3]
  have l3 : 1.1 * ε + 9 * u + 39 * (u * K) + (1.1 * ε + 9 * u + 39 * (u * K)) + u + ω + (1.1 * ε + 9 * u + 39 * (u * K)) + u + ω ≤
      3.3 * ε + 29.3 * u + 117 * (u * K) := by
    norm_num; linarith only [hε, hu, uK0, hω3]
  have l5 : 2.2 * ε + 12 * u + 39 * (u * K) ≤ 1 / 10 := by norm_num; linarith only [hε1, hu1, hK]
  -- flux and rate behind a computed depth
  have φ₁ : ∀ {ρ ρ' : ℝ}, 0 ≤ ρ ∧ 0 ≤ ρ' ∧ |ρ' - ρ| ≤ 13 * (u * R) ∧ ρ' ≤ 1.02 * R → ∃ p p', layerPhi E ρ T.nr T.s116 T.x116 = .ok p ∧
      A.layerPhi E ρ' t.nr t.s116 t.x116 = .ok p' ∧ 0 ≤ p ∧ p ≤ 1 ∧ 0 ≤ p' ∧ p' ≤ 1 ∧ |p' - p| ≤ 1.1 * ε + 9 * u + 39 * (u * K) := by
    rintro ρ ρ' ⟨g1, g2, g3, g4⟩
    obtain ⟨p, p', r1, r2, r3, r4, r5, r6, r7⟩ := h.phi_err hu hu1 hω hε hε1 x₁ ha h₁ hT.nr hT.s116 g1 g2 (by positivity) g3
    refine ⟨p, p', r1, by rw [hT.x116]; exact r2, r3, r4, r5, r6, r7.trans ?_⟩
    have := mul_le_mul_of_nonneg_left g4 hω
    norm_num at this ⊢
    linarith only [this, hω2, hω3, uK1, uK2, hu, hω]
  have φ₂ : ∀ {ρ ρ' : ℝ}, 0 ≤ ρ ∧ 0 ≤ ρ' ∧ |ρ' - ρ| ≤ 13 * (u * R) ∧ ρ' ≤ 1.02 * R → ∃ p p', layerPhi E ρ T.nr T.s112 T.x112 = .ok p ∧
      A.layerPhi E ρ' t.nr t.s112 t.x112 = .ok p' ∧ 0 ≤ p ∧ p ≤ 1 ∧ 0 ≤ p' ∧ p' ≤ 1 ∧ |p' - p| ≤ 1.1 * ε + 9 * u + 39 * (u * K) := by
    rintro ρ ρ' ⟨g1, g2, g3, g4⟩
    obtain ⟨p, p', r1, r2, r3, r4, r5, r6, r7⟩ := h.phi_err hu hu1 hω hε hε1 x₂ ha h₂ hT.nr hT.s112 g1 g2 (by positivity) g3
    refine ⟨p, p', r1, by rw [hT.x112]; exact r2, r3, r4, r5, r6, r7.trans ?_⟩
    have := mul_le_mul_of_nonneg_left g4 hω
    norm_num at this ⊢
    linarith only [this, hω2, hω3, uK1, uK2, hu, hω]
  have α₁ : ∀ {ρ ρ' : ℝ}, 0 ≤ ρ ∧ 0 ≤ ρ' ∧ |ρ' - ρ| ≤ 13 * (u * R) ∧ ρ' ≤ 1.02 * R → ∃ v v', layerAlpha E ρ T.nr T.s116 T.x116 = .ok v ∧
      A.layerAlpha E ρ' t.nr t.s116 t.x116 = .ok v' ∧ 0 ≤ v ∧ v ≤ S₁ ∧ |v' - v| ≤ (2.2 * ε + 12 * u + 39 * (u * K)) * S₁ + 3 * ω := by
    rintro ρ ρ' ⟨g1, g2, g3, g4⟩
    obtain ⟨p, p', r1, r2, r3, r4, _, r7⟩ := h.alpha_err hu hu1 hω hε hε1 x₁ ha h₁ hT.nr hT.s116 g1 g2 (by positivity) g3
    refine ⟨p, p', r1, by rw [hT.x116]; exact r2, r3, r4, r7.trans ?_⟩
    have := mul_le_mul_of_nonneg_left g4 hω
    gcongr ?_ * _ + _
    norm_num at this ⊢
    linarith only [this, hω2, hω3, uK1, uK2, hu, hω]
  have α₂ : ∀ {ρ ρ' : ℝ}, 0 ≤ ρ ∧ 0 ≤ ρ' ∧ |ρ' - ρ| ≤ 13 * (u * R) ∧ ρ' ≤ 1.02 * R → ∃ v v', layerAlpha E ρ T.nr T.s112 T.x112 = .ok v ∧
      A.layerAlpha E ρ' t.nr t.s112 t.x112 = .ok v' ∧ 0 ≤ v ∧ v ≤ S₂ ∧ |v' - v| ≤ (2.2 * ε + 12 * u + 39 * (u * K)) * S₂ + 3 * ω := by
    rintro ρ ρ' ⟨g1, g2, g3, g4⟩
    obtain ⟨p, p', r1, r2, r3, r4, _, r7⟩ := h.alpha_err hu hu1 hω hε hε1 x₂ ha h₂ hT.nr hT.s112 g1 g2 (by positivity) g3
    refine ⟨p, p', r1, by rw [hT.x112]; exact r2, r3, r4, r7.trans ?_⟩
    have := mul_le_mul_of_nonneg_left g4 hω
    gcongr ?_ * _ + _
    norm_num at this ⊢
    linarith only [this, hω2, hω3, uK1, uK2, hu, hω]
  -- a rate behind other layers
  have behind : ∀ {S p p' v v' η : ℝ}, 0 ≤ S → 0 ≤ p' → p' ≤ 1 → |p' - p| ≤ η → η ≤ 3.3 * ε + 29.3 * u + 117 * (u * K) → 0 ≤ v → v ≤ S →
      |v' - v| ≤ (2.2 * ε + 12 * u + 39 * (u * K)) * S + 3 * ω →
      |A.fl (p' * v') - p * v| ≤ (6 * ε + 50 * u + 160 * (u * K)) * S + 5 * ω := by
    intro S p p' v v' η hS g1 g2 g3 g4 g5 g6 g7
    have k := h.times_err hu hu1 g5 g6 g1 g2 l5 (by positivity) g7 g3
    rw [mul_comm p' v', mul_comm p v]
    refine k.trans ?_
    have : (2.2 * ε + 12 * u + 39 * (u * K) + η + 1.1 * u) * S ≤ (6 * ε + 50 * u + 160 * (u * K)) * S := by
      apply mul_le_mul_of_nonneg_right _ hS
      norm_num at g4 ⊢
      linarith only [g4, hε, hu, uK0]
    norm_num at this ⊢
    linarith only [this, hω]
  have D1 := depth (y := 0) (z := T.rhoI) (y' := 0) (z' := A.rhoI t) (e := 0) nI le_rfl (by linarith) mI (by simp) e1 (by norm_num; linarith only [uR])
  have D2 := depth nII nI (by linarith) mII e1 e2 (by norm_num; linarith only [uR])
  have D3 := depth nIII (by linarith) (by linarith) mIII e2 e3 (by norm_num; linarith only [uR])
  obtain ⟨p1, p1', P1, P1', c1, c2, c3, c4, c5⟩ := φ₁ D1
  obtain ⟨p2, p2', P2, P2', c6, c7, c8, c9, c10⟩ := φ₂ D2
  obtain ⟨p3, p3', P3, P3', c11, c12, c13, c14, c15⟩ := φ₁ D3
  obtain ⟨w1, w2, w3⟩ := h.pair_err hu c1 c2 c3 c4 c8 c9 c5 c10
  obtain ⟨w4, w5, w6⟩ := h.pair_err hu (mul_nonneg c1 c6) (mul_le_one₀ c2 c6 c7) w2 w3 c13 c14 w1 c15
  refine ⟨?_, fun g g' => ?_, fun g g' => ?_, fun g g' => ?_⟩
  · obtain ⟨v, v', V, V', v0, v1, ev⟩ := α₁ (depth (y := 0) (z := ρ) (y' := 0) (z' := ρ) (e := 0) (f := 0) hρ0 le_rfl hρ hρ0 (by simp) (by simp) (by norm_num; linarith only [uR]))
    refine ⟨v, v', V, V', ev.trans ?_⟩
    have : (2.2 * ε + 12 * u + 39 * (u * K)) * S₁ ≤ (6 * ε + 50 * u + 160 * (u * K)) * S₁ := by
      apply mul_le_mul_of_nonneg_right _ S10
      norm_num
      linarith only [hε, hu, uK0]
    linarith only [this, hω]
  · obtain ⟨v, v', V, V', v0, v1, ev⟩ := α₂ (depth (z := ρ) (z' := ρ) (f := 0) g nI hρ g' e1 (by simp) (by norm_num; linarith only [uR]))
    exact ⟨_, _, by simp only [LayerTarget.dNII, LayerTarget.rho0, P1, V, Bind.bind, Except.bind], by simp only [RArith.dNII, LayerTarget.rho0, P1', V', Bind.bind, Except.bind],
      behind S20 c3 c4 c5 l1 v0 v1 ev⟩
  · obtain ⟨v, v', V, V', v0, v1, ev⟩ := α₁ (depth (z := ρ) (z' := ρ) (f := 0) g (by linarith) hρ g' e2 (by simp) (by norm_num; linarith only [uR]))
    exact ⟨_, _, by simp only [LayerTarget.dNIII, LayerTarget.rho0, P1, P2, V, Bind.bind, Except.bind], by simp only [RArith.dNIII, LayerTarget.rho0, P1', P2', V', Bind.bind, Except.bind],
      behind S10 w2 w3 w1 l2 v0 v1 ev⟩
  · obtain ⟨v, v', V, V', v0, v1, ev⟩ := α₂ (depth (z := ρ) (z' := ρ) (f := 0) g (by linarith) hρ g' e3 (by simp) (by norm_num; linarith only [uR]))
    exact ⟨_, _, by simp only [LayerTarget.dNIV, LayerTarget.rho0, P1, P2, P3, V, Bind.bind, Except.bind], by simp only [RArith.dNIV, LayerTarget.rho0, P1', P2', P3', V', Bind.bind, Except.bind],
      behind S20 w5 w6 w4 l3 v0 v1 ev⟩

open KN in
/-- rounding to 53 binary digits, with results below the smallest normal number of double precision replaced by 0 -/
noncomputable def flushed (x : ℝ) : ℝ := if |x| < 2 ^ (-1022 : ℤ) then 0 else rn x

/-- an arithmetic of this kind -/
noncomputable def flushedArith : RArith := ⟨flushed, fun x => flushed (x ^ 2), fun x => flushed (Real.exp x), fun x => flushed (Real.sqrt x)⟩

theorem normal_le : (2 : ℝ) ^ (-1022 : ℤ) ≤ 1 / 2 ^ 100 := by
  have : (2 : ℝ) ^ (-1022 : ℤ) ≤ 2 ^ (-100 : ℤ) := zpow_le_zpow_right₀ one_le_two (by norm_num)
  exact this.trans (by norm_num)

open KN in
theorem rn_normal : rn (2 ^ (-1022 : ℤ)) = 2 ^ (-1022 : ℤ) ∧ rn (-2 ^ (-1022 : ℤ)) = -2 ^ (-1022 : ℤ) := by
  have h1 := rn_scale 1 (-1022)
  have h2 := rn_scale (-1) (-1022)
  have e1 : rn 1 = 1 := by exact_mod_cast rn_exact (n := 1) (by norm_num)
  have e2 : rn (-1) = -1 := by exact_mod_cast rn_exact (n := -1) (by norm_num)
  rw [e1] at h1
  rw [e2] at h2
  simp only [one_mul, neg_mul] at h1 h2
  exact ⟨h1, h2⟩

open KN in
theorem flushed_err (x : ℝ) : |flushed x - x| ≤ 1 / 2 ^ 53 * |x| + 2 ^ (-1022 : ℤ) := by
  have hm : (0 : ℝ) < 2 ^ (-1022 : ℤ) := by positivity
  rw [flushed]
  split_ifs with c
  · rw [zero_sub, abs_neg]
    nlinarith [abs_nonneg x]
  · have := (rn_rounding) x
    linarith

open KN in
theorem flushed_mono : Monotone flushed := by
  intro x y hxy
  have hm : (0 : ℝ) < 2 ^ (-1022 : ℤ) := by positivity
  have z : rn 0 = 0 := by exact_mod_cast rn_exact (n := 0) (by norm_num)
  rw [flushed, flushed]
  generalize (2 : ℝ) ^ (-1022 : ℤ) = m at *
  split_ifs with c d d
  · exact le_rfl
  · rw [← z]
    refine rn_monotone ?_
    have := (abs_lt.1 c).1
    by_contra hn
    exact d (abs_lt.2 ⟨by linarith, by linarith⟩)
  · rw [← z]
    refine rn_monotone ?_
    have := (abs_lt.1 d).2
    by_contra hn
    exact c (abs_lt.2 ⟨by linarith, by linarith⟩)
  · exact rn_monotone hxy

open KN in
theorem flushed_int {n : ℤ} (h : |n| ≤ 2 ^ 53) : flushed n = n := by
  rw [flushed, rn_exact h]
  split_ifs with c
  · by_contra hne
    have h1 : (1 : ℝ) ≤ |(n : ℝ)| := by
      have : n ≠ 0 := fun h0 => hne (by simp [h0])
      exact_mod_cast Int.one_le_abs this
    have h2 : (2 : ℝ) ^ (-1022 : ℤ) ≤ 1 := normal_le.trans (by norm_num)
    linarith
  · rfl

open KN in
theorem flushed_idem (x : ℝ) : flushed (flushed x) = flushed x := by
  by_cases c : |x| < 2 ^ (-1022 : ℤ)
  · have e : flushed x = 0 := by rw [flushed, if_pos c]
    rw [e]
    exact_mod_cast flushed_int (n := 0) (by norm_num)
  · have e : flushed x = rn x := by rw [flushed, if_neg c]
    rw [e, flushed, rn_idem, if_neg]
    rw [not_lt]
    rcases le_total 0 x with g | g
    · rw [abs_of_nonneg g, not_lt] at c
      have := rn_monotone c
      rw [rn_normal.1] at this
      exact this.trans (le_abs_self _)
    · rw [abs_of_nonpos g, not_lt] at c
      have := rn_monotone (show x ≤ -2 ^ (-1022 : ℤ) by linarith)
      rw [rn_normal.2] at this
      exact le_trans (by linarith) (neg_le_abs _)

/-- the arithmetic meets the assumptions, with the unit roundoff and the smallest normal number of double precision -/
theorem flushedArith_underflowing : flushedArith.Underflowing (1 / 2 ^ 53) (2 ^ (-1022 : ℤ)) where
  fl := flushed_err
  mono := flushed_mono
  zero := by exact_mod_cast flushed_int (n := 0) (by norm_num)
  one := by exact_mod_cast flushed_int (n := 1) (by norm_num)
  idem := flushed_idem
  exp x _ := by
    have := flushed_err (Real.exp x)
    rw [abs_of_pos (Real.exp_pos x)] at this
    have e := Real.exp_pos x
    exact this.trans (by nlinarith)
  exp_mono := flushed_mono.comp Real.exp_monotone
  exp_zero := by
    show flushed (Real.exp 0) = 1
    rw [Real.exp_zero]
    exact_mod_cast flushed_int (n := 1) (by norm_num)
  exp_nonneg x := by
    have h := flushed_mono (Real.exp_pos x).le
    rwa [show flushed 0 = 0 from by exact_mod_cast flushed_int (n := 0) (by norm_num)] at h

/-- behind a target of optical thickness 5000 the exact flux is positive, the computed one underflows: the absolute error remains small -/
example : ∃ p, flushedArith.layerPhi 1 1000 (fun _ => .ok 2) (fun _ => .ok 3) 1 = .ok p ∧ |p - Real.exp (-(2 + 1 * 3) * 1000)| ≤ 1e-14 := by
  obtain ⟨p, h1, _, _, h2⟩ := C193_flux flushedArith_underflowing (by norm_num) (by norm_num) (by positivity) (E := 1) (x := 1) (a := 2) (b := 3) (ε := 0)
    (nr := fun _ => .ok 2) (r := fun _ => .ok 3) le_rfl (by norm_num) zero_le_one (by norm_num) (by norm_num) rfl rfl (by norm_num) (by norm_num)
  refine ⟨_, h1 1000, ((h2 1000 (by norm_num)).2.2).trans ?_⟩
  have := normal_le
  generalize (2 : ℝ) ^ (-1022 : ℤ) = m at *
  norm_num at *
  linarith

/-- four layers of thickness 1 with a cross section that is computed with the relative error 10^-10 -/
example : ∃ v v', (LayerTarget.mk (fun _ => .ok 2) (fun _ => .ok 3) (fun _ => .ok 1) 1 1 1 1 1 1).dNIV 1 4 = .ok v ∧
    flushedArith.dNIV (LayerTarget.mk (fun _ => .ok (2 + 1e-10)) (fun _ => .ok 3) (fun _ => .ok 1) 1 1 1 1 1 1) 1 4 = .ok v' ∧ |v' - v| ≤ 1e-8 := by
  have f1 : flushed 1 = 1 := by exact_mod_cast flushed_int (n := 1) (by norm_num)
  have f2 : flushed 2 = 2 := by exact_mod_cast flushed_int (n := 2) (by norm_num)
  have f3 : flushed 3 = 3 := by exact_mod_cast flushed_int (n := 3) (by norm_num)
  obtain ⟨v, v', h1, h2, h3⟩ := (C193_layers flushedArith_underflowing (by norm_num) (by norm_num) (by positivity) (ε := 1e-10) (E := 1) (a := 2)
    (b₁ := 1) (b₂ := 3) (R := 4) (K := 20) (ρ := 4)
    (T := LayerTarget.mk (fun _ => .ok 2) (fun _ => .ok 3) (fun _ => .ok 1) 1 1 1 1 1 1)
    (t := LayerTarget.mk (fun _ => .ok (2 + 1e-10)) (fun _ => .ok 3) (fun _ => .ok 1) 1 1 1 1 1 1) (by norm_num) (by norm_num)
    ⟨rfl, rfl, rfl, rfl, rfl, ⟨2, _, rfl, rfl, by norm_num, by norm_num⟩, ⟨1, 1, rfl, rfl, by norm_num, by norm_num⟩, ⟨3, 3, rfl, rfl, by norm_num, by norm_num⟩⟩
    rfl rfl rfl (by norm_num) (by norm_num) (by norm_num) (by norm_num) (by norm_num)
    (by norm_num [LayerTarget.rhoIII, LayerTarget.rhoII, LayerTarget.rhoI, LayerTarget.rho0]) (by norm_num) (by norm_num) (by norm_num) (by norm_num)
    (by norm_num) (normal_le.trans (by norm_num)) ((mul_le_mul_of_nonneg_left (mul_le_mul_of_nonneg_right normal_le (by norm_num)) (by norm_num)).trans (by norm_num))).2.2.2 (by norm_num [LayerTarget.rhoIII, LayerTarget.rhoII, LayerTarget.rhoI, LayerTarget.rho0])
    (by
      simp only [RArith.rhoIII, RArith.rhoII, RArith.rhoI, LayerTarget.rho0, flushedArith]
      rw [show (0 : ℝ) + 1 = 1 by norm_num, f1, show (1 : ℝ) + 1 = 2 by norm_num, f2, show (2 : ℝ) + 1 = 3 by norm_num, f3]
      norm_num)
  refine ⟨v, v', h1, h2, h3.trans ?_⟩
  have := normal_le
  generalize (2 : ℝ) ^ (-1022 : ℤ) = m at *
  norm_num at this ⊢
  linarith

end Ries
