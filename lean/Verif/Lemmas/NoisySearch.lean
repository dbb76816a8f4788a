import Verif.Lemmas.NewtonNoisy

/-! # The search for quantiles converges in floating point -/

namespace Ries

section
variable {fl Fc pc F p : ℝ → ℝ} {c u η L : ℝ}

/-- what is assumed about the arithmetic, and about the computed functions near the centre -/
structure SearchNoise (fl Fc pc F p : ℝ → ℝ) (c u η L : ℝ) : Prop where
  rounding : Rounding u fl
  u0 : 0 ≤ u
  u1 : u ≤ 1 / 1000
  η0 : 0 ≤ η
  η1 : η ≤ 1 / 1000
  good : GoodCDF F p
  cdf : ∀ x, |x - c| ≤ L → |Fc x - F x| ≤ η
  pdf : ∀ x, |x - c| ≤ L → |pc x - p x| ≤ η * p x

theorem SearchNoise.pc_pos (h : SearchNoise fl Fc pc F p c u η L) {x : ℝ} (hx : |x - c| ≤ L) : 0 < pc x := by
  have h1 := (abs_le.1 (h.pdf x hx)).1
  have := h.good.pos x
  nlinarith [h.η1]

/-- error of the computed step -/
theorem SearchNoise.dp (h : SearchNoise fl Fc pc F p c u η L) {x q : ℝ} (hx : |x - c| ≤ L) (q0 : 0 ≤ q) (q1 : q ≤ 1) :
    |fl (fl (Fc x - q) / pc x) - (F x - q) / p x| ≤ 2.2 * (η + u) / p x := by
  have hp := h.good.pos x
  have hpc := h.pc_pos hx
  have hF := h.cdf x hx
  have hpd := h.pdf x hx
  have hF0 := h.good.gt_zero x
  have hF1 := h.good.lt_one x
  have hu0 := h.u0
  have hu1 := h.u1
  have hη0 := h.η0
  have hη1 := h.η1
  have r1 := h.rounding (Fc x - q)
  have r2 := h.rounding (fl (Fc x - q) / pc x)
  generalize fl (fl (Fc x - q) / pc x) = dp at *
  generalize fl (Fc x - q) = g at *
  have he : |F x - q| ≤ 1 := abs_le.2 ⟨by linarith, by linarith⟩
  have hd : |Fc x - q| ≤ 1 + η := by
    have := abs_add_le (Fc x - F x) (F x - q)
    rw [show Fc x - F x + (F x - q) = Fc x - q by ring] at this
    linarith
  -- numerator
  have n1 : |g - (F x - q)| ≤ η + u * (1 + η) := by
    have := abs_add_le (g - (Fc x - q)) (Fc x - F x)
    rw [show g - (Fc x - q) + (Fc x - F x) = g - (F x - q) by ring] at this
    nlinarith
  have n2 : |g| ≤ 1.003 := by
    have := abs_add_le (g - (F x - q)) (F x - q)
    rw [show g - (F x - q) + (F x - q) = g by ring] at this
    nlinarith
  -- quotient
  have hpc1 : 0.999 * p x ≤ pc x := by
    have := (abs_le.1 hpd).1
    nlinarith
  have hpx : p x / pc x ≤ 1.0011 := by
    rw [div_le_iff₀ hpc]; linarith
  have n3 : |g / pc x| ≤ 1.0042 / p x := by
    rw [abs_div, abs_of_pos hpc, div_le_div_iff₀ hpc hp]
    nlinarith [abs_nonneg g]
  have n4 : |g / pc x - g / p x| ≤ 1.0042 * η / p x := by
    have e : g / pc x - g / p x = g / pc x * ((p x - pc x) / p x) := by field_simp
    rw [e, abs_mul, abs_div (p x - pc x), abs_of_pos hp, abs_sub_comm]
    have : |pc x - p x| / p x ≤ η := by rwa [div_le_iff₀ hp]
    calc _ ≤ 1.0042 / p x * η := mul_le_mul n3 this (by positivity) (by positivity)
      _ = _ := by ring
  have n5 : |g / p x - (F x - q) / p x| ≤ (η + u * (1 + η)) / p x := by
    rw [← sub_div, abs_div, abs_of_pos hp]
    exact div_le_div_of_nonneg_right n1 hp.le
  have n6 : |dp - g / pc x| ≤ 1.0042 * u / p x := by
    refine r2.trans ?_
    calc _ ≤ u * (1.0042 / p x) := mul_le_mul_of_nonneg_left n3 hu0
      _ = _ := by ring
  have t1 := abs_add_le (dp - g / pc x) (g / pc x - g / p x)
  have t2 := abs_add_le (dp - g / pc x + (g / pc x - g / p x)) (g / p x - (F x - q) / p x)
  rw [show dp - g / pc x + (g / pc x - g / p x) + (g / p x - (F x - q) / p x) = dp - (F x - q) / p x by ring] at t2
  have t3 : 1.0042 * u / p x + 1.0042 * η / p x + (η + u * (1 + η)) / p x ≤ 2.2 * (η + u) / p x := by
    rw [← add_div, ← add_div]
    exact div_le_div_of_nonneg_right (by nlinarith) hp.le
  linarith

/-- the computed point -/
theorem SearchNoise.noisy (h : SearchNoise fl Fc pc F p c u η L) {x q : ℝ} (hx : |x - c| ≤ L) (q0 : 0 ≤ q) (q1 : q ≤ 1)
    (hy : |x - (F x - q) / p x - c| ≤ L) (hZ : 2.2 * (η + u) / p x ≤ L) :
    NoisyStep F p q (u * (|c| + 2 * L)) (2.2 * (η + u)) x (fl (x - fl (fl (Fc x - q) / pc x))) := by
  have h1 := h.dp hx q0 q1
  have h2 := h.rounding (x - fl (fl (Fc x - q) / pc x))
  generalize fl (fl (Fc x - q) / pc x) = dp at *
  unfold NoisyStep
  have h3 : |x - dp| ≤ |c| + 2 * L := by
    have t1 := abs_add_le (x - (F x - q) / p x - c) (c - (dp - (F x - q) / p x))
    rw [show x - (F x - q) / p x - c + (c - (dp - (F x - q) / p x)) = x - dp by ring] at t1
    have t2 := abs_sub c (dp - (F x - q) / p x)
    linarith
  have h4 : u * |x - dp| ≤ u * (|c| + 2 * L) := mul_le_mul_of_nonneg_left h3 h.u0
  have t1 := abs_sub (fl (x - dp) - (x - dp)) (dp - (F x - q) / p x)
  rw [show fl (x - dp) - (x - dp) - (dp - (F x - q) / p x) = fl (x - dp) - (x - (F x - q) / p x) by ring] at t1
  linarith

end

namespace NoisySide
variable {F p : ℝ → ℝ} {c q xs m M a h : ℝ}

/-- the point reached without errors lies between the lowest admissible point and the centre -/
theorem landing (H : NoisySide F p c q xs m M a h) {k : ℕ} {x L : ℝ} (hI : NoisyInv F p c q xs m M a h k x)
    (hL : ∀ x, x ≤ c → q - (M * a + h) ≤ F x → c - x ≤ L) : |x - c| ≤ L ∧ |x - (F x - q) / p x - c| ≤ L := by
  obtain ⟨hx, hF, -⟩ := hI
  have hm := H.low x hx hF
  have hp := H.good.pos x
  have hcx := hL x hx hF
  refine ⟨abs_le.2 ⟨by linarith, by linarith⟩, ?_⟩
  have hν : 0 ≤ M * a + h := add_nonneg (mul_nonneg H.M0.le H.a0) H.h0
  have ee : p x * ((F x - q) / p x) = F x - q := mul_div_cancel₀ _ hp.ne'
  rcases lt_or_ge (F x - q) 0 with hneg | hpos
  · have hxxs : x < xs := by
      rw [← H.good.strictMono.lt_iff_lt, H.root]; linarith
    have hW := H.W0
    have hroom := H.room
    have hmW : m * ((M * a + h) / m) = M * a + h := mul_div_cancel₀ _ H.m0.ne'
    generalize (M * a + h) / m = W at *
    have ht0 : (F x - q) / p x ≤ 0 := div_nonpos_of_nonpos_of_nonneg hneg.le hp.le
    generalize (F x - q) / p x = t at *
    have ht : -t ≤ W := by
      by_contra hlt
      push Not at hlt
      nlinarith [H.m0]
    exact abs_le.2 ⟨by linarith, by linarith⟩
  · have ht0 : 0 ≤ (F x - q) / p x := div_nonneg hpos hp.le
    generalize (F x - q) / p x = t at *
    have := H.tangent hx (show x - t ≤ c by linarith)
    have := hL (x - t) (by linarith) (by nlinarith)
    exact abs_le.2 ⟨by linarith, by linarith⟩

end NoisySide

section
variable {fl Fc pc F p : ℝ → ℝ} {c u η L m M : ℝ}

/-- the lower side for quantile `q` -/
def SideOk (F p : ℝ → ℝ) (c u η L m M q xs : ℝ) : Prop :=
  0 ≤ q ∧ q ≤ 1 ∧ NoisySide F p c q xs m M (u * (|c| + 2 * L)) (2.2 * (η + u)) ∧
    ∀ x, x ≤ c → q - (M * (u * (|c| + 2 * L)) + 2.2 * (η + u)) ≤ F x → c - x ≤ L

/-- what holds for a component after `k` steps: the median is found at once, the other quantiles are approached from the centre -/
def OnTrack (fl Fc F p : ℝ → ℝ) (c u η L m M : ℝ) (k : ℕ) (q x : ℝ) : Prop :=
  (q = 1 / 2 ∧ x = c ∧ Fc c = 1 / 2 ∧ fl c = c) ∨
  (∃ xs, SideOk F p c u η L m M q xs ∧ NoisyInv F p c q xs m M (u * (|c| + 2 * L)) (2.2 * (η + u)) k x) ∨
  ∃ xs, SideOk F p c u η L m M (1 - q) xs ∧ NoisyInv F p c (1 - q) xs m M (u * (|c| + 2 * L)) (2.2 * (η + u)) k (2 * c - x)

/-- the bound of a step -/
noncomputable def trackW (c u η L m M : ℝ) : ℝ := (M * (u * (|c| + 2 * L)) + 2.2 * (η + u)) / m

noncomputable def trackB (c u η L m M : ℝ) (k : ℕ) : ℝ :=
  max ((0.261 : ℝ) ^ k * (M / 2) / m ^ 2) ((50 + k) * trackW c u η L m M) + trackW c u η L m M

/-- one side -/
theorem SideOk.facts (hWL : trackW c u η L m M ≤ L) {k : ℕ} {q x xs : ℝ}
    (hs : SideOk F p c u η L m M q xs) (hI : NoisyInv F p c q xs m M (u * (|c| + 2 * L)) (2.2 * (η + u)) k x) :
    |x - c| ≤ L ∧ |x - (F x - q) / p x - c| ≤ L ∧ 2.2 * (η + u) / p x ≤ L ∧
    |(F x - q) / p x| + (u * (|c| + 2 * L) + 2.2 * (η + u) / p x) ≤ trackB c u η L m M k := by
  obtain ⟨q0, q1, H, hL⟩ := hs
  obtain ⟨l1, l2⟩ := H.landing hI hL
  have hm := H.low x hI.1 hI.2.1
  obtain ⟨n1, n2⟩ := H.noise_le hm
  have ha := H.a0
  have hsh := H.short hI
  change _ ≤ trackW c u η L m M at n2
  refine ⟨l1, l2, by linarith, ?_⟩
  unfold trackB
  exact add_le_add hsh n2

theorem SearchNoise.track (h : SearchNoise fl Fc pc F p c u η L) (hp : Peaked c p) (hWL : trackW c u η L m M ≤ L)
    (hB : 0 ≤ trackW c u η L m M) (hm : 0 < m) (hM : 0 < M) {k : ℕ} {q x : ℝ} (ht : OnTrack fl Fc F p c u η L m M k q x) :
    pc x ≠ 0 ∧ |fl (fl (Fc x - q) / pc x)| ≤ trackB c u η L m M k ∧
    |fl (x - fl (fl (Fc x - q) / pc x)) - x| ≤ trackB c u η L m M k ∧
    OnTrack fl Fc F p c u η L m M (k + 1) q (fl (x - fl (fl (Fc x - q) / pc x))) := by
  have conc : |x - c| ≤ L → 0 ≤ q → q ≤ 1 → |(F x - q) / p x| + (u * (|c| + 2 * L) + 2.2 * (η + u) / p x) ≤ trackB c u η L m M k →
      0 ≤ u * (|c| + 2 * L) →
      NoisyStep F p q (u * (|c| + 2 * L)) (2.2 * (η + u)) x (fl (x - fl (fl (Fc x - q) / pc x))) →
      pc x ≠ 0 ∧ |fl (fl (Fc x - q) / pc x)| ≤ trackB c u η L m M k ∧
      |fl (x - fl (fl (Fc x - q) / pc x)) - x| ≤ trackB c u η L m M k := by
    intro hx q0 q1 hb ha hn
    have h1 := h.dp hx q0 q1
    refine ⟨(h.pc_pos hx).ne', ?_, ?_⟩
    · have := abs_add_le (fl (fl (Fc x - q) / pc x) - (F x - q) / p x) ((F x - q) / p x)
      rw [sub_add_cancel] at this
      linarith
    · unfold NoisyStep at hn
      generalize fl (x - fl (fl (Fc x - q) / pc x)) = x' at *
      have := abs_sub (x' - (x - (F x - q) / p x)) ((F x - q) / p x)
      rw [show x' - (x - (F x - q) / p x) - (F x - q) / p x = x' - x by ring] at this
      linarith
  rcases ht with ⟨rfl, rfl, hF, hc⟩ | ⟨xs, hs, hI⟩ | ⟨xs, hs, hI⟩
  · have hf0 : fl 0 = 0 := by
      have := h.rounding 0
      simpa using this
    have hL0 : 0 ≤ L := hB.trans hWL
    have hb : 0 ≤ trackB x u η L m M k := by
      unfold trackB
      refine add_nonneg (le_max_of_le_left ?_) hB
      positivity
    have e : fl (fl (Fc x - 1 / 2) / pc x) = 0 := by rw [hF, sub_self, hf0, zero_div, hf0]
    rw [e, sub_zero, hc, sub_self, abs_zero]
    exact ⟨(h.pc_pos (by simpa using hL0)).ne', hb, hb, .inl ⟨rfl, rfl, hF, hc⟩⟩
  · obtain ⟨s1, s2, s3, s4⟩ := SideOk.facts hWL hs hI
    have hn := h.noisy s1 hs.1 hs.2.1 s2 s3
    obtain ⟨c1, c2, c3⟩ := conc s1 hs.1 hs.2.1 s4 hs.2.2.1.a0 hn
    exact ⟨c1, c2, c3, .inr (.inl ⟨xs, hs, hs.2.2.1.step hI hn⟩)⟩
  · have hsym : p (2 * c - x) = p x := by
      have := hp.symm (c - x)
      rw [show c + (c - x) = 2 * c - x by ring, show c - (c - x) = x by ring] at this
      exact this
    have hFs : F (2 * c - x) - (1 - q) = -(F x - q) := by
      have := h.good.add_of_symm c hp.symm (c - x)
      rw [show c + (c - x) = 2 * c - x by ring, show c - (c - x) = x by ring] at this
      linarith
    obtain ⟨s1, s2, s3, s4⟩ := SideOk.facts hWL hs hI
    rw [hFs, hsym] at s2
    rw [hsym] at s3
    rw [hFs, hsym, neg_div, abs_neg] at s4
    rw [show 2 * c - x - c = -(x - c) by ring, abs_neg] at s1
    rw [show 2 * c - x - -(F x - q) / p x - c = -(x - (F x - q) / p x - c) by ring, abs_neg] at s2
    have q0 : 0 ≤ q := by linarith [hs.2.1]
    have q1 : q ≤ 1 := by linarith [hs.1]
    have hn := h.noisy s1 q0 q1 s2 s3
    obtain ⟨c1, c2, c3⟩ := conc s1 q0 q1 s4 hs.2.2.1.a0 hn
    refine ⟨c1, c2, c3, .inr (.inr ⟨xs, hs, hs.2.2.1.step hI ?_⟩)⟩
    unfold NoisyStep at hn ⊢
    rw [hFs, hsym]
    generalize fl (x - fl (fl (Fc x - q) / pc x)) = x' at *
    rw [show 2 * c - x' - (2 * c - x - -(F x - q) / p x) = -(x' - (x - (F x - q) / p x)) by ring, abs_neg]
    exact hn

end

/-! ## The two loops -/

section
variable {fl Fc pc : ℝ → ℝ}

theorem newtonLoopR_converges (T : ℕ → ℝ → ℝ → Prop) (N : ℕ) (hpc : ∀ k q x, T k q x → pc x ≠ 0)
    (hstep : ∀ k q x, T k q x → T (k + 1) q (fl (x - fl (fl (Fc x - q) / pc x))))
    (hend : ∀ q x, T N q x → |fl (fl (Fc x - q) / pc x)| < fl newtonTol) :
    ∀ (fuel k : ℕ) (st : List NEl), k + fuel = N → st ≠ [] → (∀ e ∈ st, T k e.q e.x) →
      ∀ e ∈ newtonLoopR fl Fc pc (fuel + 1) st, e.failed = false := by
  have hst : ∀ k (e : NEl), T k e.q e.x → NEl.stepR fl Fc pc e =
      ⟨e.q, fl (e.x - fl (fl (Fc e.x - e.q) / pc e.x)), decide (fl newtonTol ≤ |fl (fl (Fc e.x - e.q) / pc e.x)|), true⟩ := by
    intro k e he
    unfold NEl.stepR
    rw [if_neg (hpc k _ _ he)]
  intro fuel
  induction fuel with
  | zero =>
    intro k st hk hne hT
    obtain rfl : k = N := by omega
    unfold newtonLoopR
    split_ifs with h1 h2
    · intro e he
      obtain ⟨e0, -, rfl⟩ := List.mem_map.1 he
      rfl
    · obtain ⟨e0, he0⟩ := List.exists_mem_of_ne_nil _ hne
      exact absurd (h2 e0 he0) (hpc _ _ _ (hT e0 he0))
    · have hall : ∀ e ∈ st.map (NEl.stepR fl Fc pc), e.failed = false := by
        intro e he
        obtain ⟨e0, he0, rfl⟩ := List.mem_map.1 he
        rw [hst _ _ (hT e0 he0)]
        simp only [decide_eq_false_iff_not, not_le]
        exact hend _ _ (hT e0 he0)
      simp only
      rw [if_pos fun e he _ => hall e he]
      exact hall
  | succ n ih =>
    intro k st hk hne hT
    rw [newtonLoopR]
    split_ifs with h1 h2
    · intro e he
      obtain ⟨e0, -, rfl⟩ := List.mem_map.1 he
      rfl
    · obtain ⟨e0, he0⟩ := List.exists_mem_of_ne_nil _ hne
      exact absurd (h2 e0 he0) (hpc _ _ _ (hT e0 he0))
    · simp only
      split_ifs with h3
      · intro e he
        refine h3 e he ?_
        obtain ⟨e0, he0, rfl⟩ := List.mem_map.1 he
        rw [hst _ _ (hT e0 he0)]
      · refine ih (k + 1) _ (by omega) (by simpa using hne) ?_
        intro e he
        obtain ⟨e0, he0, rfl⟩ := List.mem_map.1 he
        rw [hst _ _ (hT e0 he0)]
        exact hstep _ _ _ (hT e0 he0)

theorem newtonScalarR_converges (T : ℕ → ℝ → ℝ → Prop) (N : ℕ) (q : ℝ) (hpc : ∀ k x, T k q x → pc x ≠ 0)
    (hstep : ∀ k x, T k q x → T (k + 1) q (fl (x - fl (fl (Fc x - q) / pc x))))
    (hend : ∀ x, T N q x → |fl (fl (x - fl (fl (Fc x - q) / pc x)) - x)| ≤ fl newtonTol) :
    ∀ (fuel k : ℕ) (x : ℝ), k + fuel = N → T k q x → ∃ y, newtonScalarR fl Fc pc q (fuel + 1) x = .ok y := by
  intro fuel
  induction fuel with
  | zero =>
    intro k x hk hT
    obtain rfl : k = N := by omega
    unfold newtonScalarR
    split_ifs with h1 h2
    · exact ⟨_, rfl⟩
    · exact absurd h2 (hpc _ _ hT)
    · simp only
      rw [if_pos (hend x hT)]
      exact ⟨_, rfl⟩
  | succ n ih =>
    intro k x hk hT
    rw [newtonScalarR]
    split_ifs with h1 h2
    · exact ⟨_, rfl⟩
    · exact absurd h2 (hpc _ _ hT)
    · simp only
      split_ifs with h3
      · exact ⟨_, rfl⟩
      · exact ih (k + 1) _ (by omega) (hstep _ _ hT)

end

end Ries
