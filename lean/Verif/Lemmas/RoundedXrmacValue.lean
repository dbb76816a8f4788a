import Verif.Lemmas.RoundedXrmacShipped
import Verif.Lemmas.RoundedKN

/-! # Rounded interpolation compared with exact interpolation -/

namespace Ries

/-- the operations of the interpolation formula, against the formula -/
theorem lerpR_close {u : ℝ} {fl : ℝ → ℝ} (hu : Rounding u fl) (hu0 : 0 ≤ u) (hu1 : u ≤ 1 / 1000)
    {a b D d M : ℝ} (ha : |a| ≤ M) (hb : |b| ≤ M) (hd : 0 ≤ d) (hdD : d ≤ D) (hD : 0 < D) :
    |fl (fl (fl (fl (b - a) / fl D) * fl d) + a) - (a + (b - a) * (d / D))| ≤ 12 * u * M := by
  have hM : 0 ≤ M := (abs_nonneg a).trans ha
  have hu2 : u < 1 := by linarith
  have r := fun x => KN.Rel.round hu hu0 hu2 (KN.Rel.refl (n := 0) hu0 hu2 x)
  have h1 := KN.Rel.round hu hu0 hu2 (KN.Rel.div hu2 (r (b - a)) (r D))
  have h2 := KN.Rel.round hu hu0 hu2 (KN.Rel.mul hu2 h1 (r d))
  have h3 := KN.Rel.abs_le hu0 (by norm_num at hu1 ⊢; linarith) h2
  set w := fl (fl (fl (b - a) / fl D) * fl d) with hw
  have t0 : 0 ≤ d / D := div_nonneg hd hD.le
  have t1 : d / D ≤ 1 := (div_le_one hD).2 hdD
  have e : (b - a) / D * d = (b - a) * (d / D) := by ring
  rw [e] at h3
  have hba : |b - a| ≤ 2 * M := by
    have := abs_sub b a
    linarith
  have h4 : |(b - a) * (d / D)| ≤ 2 * M := by
    rw [abs_mul, abs_of_nonneg t0]
    calc |b - a| * (d / D) ≤ 2 * M * 1 := mul_le_mul hba t1 t0 (by linarith)
      _ = _ := by ring
  push_cast at h3
  norm_num [-abs_mul] at h3
  have h5 : |w - (b - a) * (d / D)| ≤ 10.2 * u * M := by
    refine h3.trans ?_
    have : u * |(b - a) * (d / D)| ≤ u * (2 * M) := by gcongr
    norm_num [-abs_mul]
    linarith [mul_nonneg hu0 hM]
  have h6 : |a + (b - a) * (d / D)| ≤ M := by
    have : a + (b - a) * (d / D) = (1 - d / D) * a + d / D * b := by ring
    rw [this]
    calc |(1 - d / D) * a + d / D * b| ≤ |(1 - d / D) * a| + |d / D * b| := abs_add_le _ _
      _ = (1 - d / D) * |a| + d / D * |b| := by rw [abs_mul, abs_mul, abs_of_nonneg t0, abs_of_nonneg (sub_nonneg.2 t1)]
      _ ≤ (1 - d / D) * M + d / D * M := by
        have := sub_nonneg.2 t1
        gcongr
      _ = M := by ring
  have h7 := hu (w + a)
  have h8 : |w + a| ≤ M + 10.2 * u * M := by
    have : w + a = (w - (b - a) * (d / D)) + (a + (b - a) * (d / D)) := by ring
    rw [this]
    exact (abs_add_le _ _).trans (by linarith)
  have h9 : u * |w + a| ≤ u * (M + 10.2 * u * M) := by gcongr
  have h10 : u * (10.2 * u * M) ≤ 1 / 1000 * (10.2 * u * M) := by
    have : 0 ≤ 10.2 * u * M := by positivity
    gcongr
  have : fl (w + a) - (a + (b - a) * (d / D)) = (fl (w + a) - (w + a)) + (w - (b - a) * (d / D)) := by ring
  rw [this]
  refine (abs_add_le _ _).trans ?_
  have := mul_nonneg hu0 hM
  norm_num at h5 h9 h10 ⊢
  linarith

/-- linear interpolation with inexact nodes -/
theorem lerp_stable {x0 x1 x x0' x1' x' a b a' b' dx dy S : ℝ} (h01 : x0 < x1)
    (h01' : x0' < x1') (hx0' : x0' ≤ x') (hx1' : x' ≤ x1') (e0 : |x0' - x0| ≤ dx) (e1 : |x1' - x1| ≤ dx) (e : |x' - x| ≤ dx)
    (ea : |a' - a| ≤ dy) (eb : |b' - b| ≤ dy) (hS : |b - a| ≤ S * (x1 - x0)) :
    |(a' + (b' - a') * ((x' - x0') / (x1' - x0'))) - (a + (b - a) * ((x - x0) / (x1 - x0)))| ≤ dy + 2 * dx * S := by
  have hD : 0 < x1 - x0 := sub_pos.2 h01
  have hD' : 0 < x1' - x0' := sub_pos.2 h01'
  set t := (x - x0) / (x1 - x0) with ht
  set t' := (x' - x0') / (x1' - x0') with ht'
  have m : t * (x1 - x0) = x - x0 := by rw [ht]; field_simp
  have m' : t' * (x1' - x0') = x' - x0' := by rw [ht']; field_simp
  have t0 : 0 ≤ t' := div_nonneg (by linarith) hD'.le
  have t1 : t' ≤ 1 := (div_le_one hD').2 (by linarith)
  have s1 := sub_nonneg.2 t1
  have hconv : ∀ p q k : ℝ, |p| ≤ k → |q| ≤ k → |(1 - t') * p + t' * q| ≤ k := by
    intro p q k hp hq
    calc |(1 - t') * p + t' * q| ≤ |(1 - t') * p| + |t' * q| := abs_add_le _ _
      _ = (1 - t') * |p| + t' * |q| := by rw [abs_mul, abs_mul, abs_of_nonneg t0, abs_of_nonneg s1]
      _ ≤ (1 - t') * k + t' * k := by gcongr
      _ = k := by ring
  have k1 := hconv _ _ _ ea eb
  have k2 := hconv _ _ _ e0 e1
  have k3 : |(t' - t) * (x1 - x0)| ≤ 2 * dx := by
    have : (t' - t) * (x1 - x0) = (x' - x) - ((1 - t') * (x0' - x0) + t' * (x1' - x1)) := by linear_combination -m - (-m')
    rw [this]
    exact (abs_sub _ _).trans (by linarith)
  have hS0 : 0 ≤ S := by
    by_contra hn
    have := mul_neg_of_neg_of_pos (not_le.1 hn) hD
    linarith [abs_nonneg (b - a)]
  have k4 : |(b - a) * (t' - t)| ≤ 2 * dx * S := by
    rw [abs_mul]
    calc |b - a| * |t' - t| ≤ S * (x1 - x0) * |t' - t| := by gcongr
      _ = S * |(t' - t) * (x1 - x0)| := by rw [abs_mul, abs_of_pos hD]; ring
      _ ≤ S * (2 * dx) := by gcongr
      _ = _ := by ring
  have : (a' + (b' - a') * t') - (a + (b - a) * t) = ((1 - t') * (a' - a) + t' * (b' - b)) + (b - a) * (t' - t) := by ring
  rw [this]
  exact (abs_add_le _ _).trans (by linarith)

section
variable {u : ℝ} {fl lg pw : ℝ → ℝ} {t : Table}

/-- the computed value between two neighbouring rows: the power of a number close to the interpolated logarithm -/
theorem xrmacCallR_value (hu : Rounding u fl) (hu0 : 0 ≤ u) (hu1 : u ≤ 1 / 1000)
    (hsl : t.Pairwise fun a b => lg a.1 ≤ lg b.1) {E E0 E1 y0 y1 M : ℝ}
    (pre post : Table) (h : t = pre ++ (E0, y0) :: (E1, y1) :: post) (hE0 : lg E0 ≤ lg E) (hE1 : lg E ≤ lg E1)
    (hsep : lg E0 < lg E1) (hedge : lg E < lg E1 ∨ ∀ r ∈ post, lg r.1 ≠ lg E1)
    (hM0 : |lg y0| ≤ M) (hM1 : |lg y1| ≤ M) :
    ∃ z, xrmacCallR fl lg pw t E = .ok (.fin (pw z)) ∧
      |z - (lg y0 + (lg y1 - lg y0) * ((lg E - lg E0) / (lg E1 - lg E0)))| ≤ 12 * u * M := by
  have hM : 0 ≤ M := (abs_nonneg _).trans hM0
  have huM : 0 ≤ 12 * u * M := by positivity
  have hD : 0 < lg E1 - lg E0 := sub_pos.2 hsep
  have hpl : ∀ r ∈ post, lg E1 ≤ lg r.1 := by
    intro r hr
    rw [h, List.pairwise_append] at hsl
    have := hsl.2.1
    rw [List.pairwise_cons, List.pairwise_cons] at this
    exact this.2.1 r hr
  rcases hE0.eq_or_lt with e0 | l0
  · refine ⟨lg y0, xrmacCallR_node h e0.symm ?_, ?_⟩
    · intro r hr
      rcases List.mem_cons.1 hr with rfl | hr
      · exact hsep.ne'
      · exact (hsep.trans_le (hpl r hr)).ne'
    · rw [← e0]
      simpa using huM
  rcases hE1.eq_or_lt with e1 | l1
  · have hp := hedge.resolve_left (by rw [e1]; exact lt_irrefl _)
    refine ⟨lg y1, xrmacCallR_node (pre := pre ++ [(E0, y0)]) (E := E1) (y := y1) (post := post) (by simp [h]) e1 hp, ?_⟩
    rw [e1, div_self hD.ne']
    simpa using huM
  · exact ⟨_, xrmacCallR_between h hsl l0 l1, lerpR_close hu hu0 hu1 hM0 hM1 (sub_nonneg.2 hE0) (by linarith) hD⟩

/-- the logarithm of the power law between two rows -/
theorem power_law_log {E E0 E1 y0 y1 : ℝ} (hE : 0 < E) (h0 : 0 < E0) (h01 : E0 < E1) (hy0 : 0 < y0) (hy1 : 0 < y1) :
    Real.logb 10 (y0 * (E / E0) ^ (Real.log (y1 / y0) / Real.log (E1 / E0))) = Real.logb 10 y0 +
      (Real.logb 10 y1 - Real.logb 10 y0) * ((Real.logb 10 E - Real.logb 10 E0) / (Real.logb 10 E1 - Real.logb 10 E0)) := by
  have h1 : 0 < E1 := h0.trans h01
  have hl : Real.log E1 - Real.log E0 ≠ 0 := (sub_pos.2 (Real.log_lt_log h0 h01)).ne'
  have l10 : Real.log 10 ≠ 0 := (Real.log_pos (by norm_num)).ne'
  rw [Real.logb_mul hy0.ne' (by positivity), Real.logb_rpow_eq_mul_logb_of_pos (by positivity)]
  simp only [Real.logb]
  rw [Real.log_div hy1.ne' hy0.ne', Real.log_div h1.ne' h0.ne', Real.log_div hE.ne' h0.ne']
  field_simp

/-- the computed value, against the power law through rows that are stored with an error `κ` of the logarithms, at an energy with
such an error -/
theorem xrmacCallR_law {δ κ X M S : ℝ} (hu : Rounding u fl) (hu0 : 0 ≤ u) (hu1 : u ≤ 1 / 1000) (hlg : LogApprox δ lg)
    (hpw : PowApprox δ pw) (h0 : 0 ≤ δ) (h1 : δ ≤ 1) (ht : PosTable t) (hs : SortedTable t) {E E0 E1 y0 y1 E' F0 F1 z0 z1 : ℝ}
    (pre post : Table) (h : t = pre ++ (E0, y0) :: (E1, y1) :: post) (hE0 : E0 ≤ E) (hE1 : E ≤ E1)
    (hsep : lg E0 < lg E1) (hedge : lg E < lg E1 ∨ ∀ r ∈ post, lg r.1 ≠ lg E1)
    (hF0 : 0 < F0) (hF : F0 < F1) (hz0 : 0 < z0) (hz1 : 0 < z1) (hE' : 0 < E')
    (k0 : |Real.logb 10 E0 - Real.logb 10 F0| ≤ κ) (k1 : |Real.logb 10 E1 - Real.logb 10 F1| ≤ κ)
    (kE : |Real.logb 10 E - Real.logb 10 E'| ≤ κ) (m0 : |Real.logb 10 y0 - Real.logb 10 z0| ≤ κ)
    (m1 : |Real.logb 10 y1 - Real.logb 10 z1| ≤ κ) (x0 : |Real.logb 10 E0| ≤ X) (x1 : |Real.logb 10 E1| ≤ X)
    (M0 : |Real.logb 10 y0| ≤ M) (M1 : |Real.logb 10 y1| ≤ M)
    (hS : |Real.logb 10 z1 - Real.logb 10 z0| ≤ S * (Real.logb 10 F1 - Real.logb 10 F0)) :
    ∃ v, xrmacCallR fl lg pw t E = .ok (.fin v) ∧ Within δ (κ + δ * M + 2 * (κ + δ * X) * S + 24 * u * M)
      (z0 * (E' / F0) ^ (Real.log (z1 / z0) / Real.log (F1 / F0)))
      (z0 * (E' / F0) ^ (Real.log (z1 / z0) / Real.log (F1 / F0))) v := by
  have p0 := ht.2 (E0, y0) (by simp [h])
  have p1 := ht.2 (E1, y1) (by simp [h])
  simp only at p0 p1
  have hE : 0 < E := p0.1.trans_le hE0
  have hM : 0 ≤ M := (abs_nonneg _).trans M0
  have xE : |Real.logb 10 E| ≤ X := by
    have a := logb_le p0.1 hE0
    have b := logb_le hE hE1
    rw [abs_le] at x0 x1 ⊢
    constructor <;> linarith [x0.1, x1.2]
  have hsl : t.Pairwise fun a b => lg a.1 ≤ lg b.1 :=
    List.Pairwise.imp_of_mem (fun ha _ hab => hlg.mono _ _ (ht.2 _ ha).1 hab) hs
  have tri : ∀ x f B, 0 < x → |Real.logb 10 x - f| ≤ κ → |Real.logb 10 x| ≤ B → |lg x - f| ≤ κ + δ * B := by
    intro x f B hx hk hB
    have e1 := hlg.err x hx
    have e2 : δ * |Real.logb 10 x| ≤ δ * B := by gcongr
    have : lg x - f = (lg x - Real.logb 10 x) + (Real.logb 10 x - f) := by ring
    rw [this]
    exact (abs_add_le _ _).trans (by linarith)
  have hb : ∀ y, 0 < y → |Real.logb 10 y| ≤ M → |lg y| ≤ 2 * M := by
    intro y hy h4
    have h3 := hlg.err y hy
    have : |lg y| ≤ |lg y - Real.logb 10 y| + |Real.logb 10 y| := by
      simpa using abs_add_le (lg y - Real.logb 10 y) (Real.logb 10 y)
    have : δ * |Real.logb 10 y| ≤ 1 * M := mul_le_mul h1 h4 (abs_nonneg _) (by norm_num)
    linarith
  obtain ⟨z, hz, he⟩ := xrmacCallR_value (pw := pw) hu hu0 hu1 hsl pre post h (hlg.mono _ _ p0.1 hE0) (hlg.mono _ _ hE hE1)
    hsep hedge (hb y0 p0.2 M0) (hb y1 p1.2 M1)
  refine ⟨_, hz, ?_⟩
  have hst := lerp_stable (logb_lt hF0 hF) hsep (hlg.mono _ _ p0.1 hE0) (hlg.mono _ _ hE hE1) (tri _ _ _ p0.1 k0 x0)
    (tri _ _ _ p1.1 k1 x1) (tri _ _ _ hE kE xE) (tri _ _ _ p0.2 m0 M0) (tri _ _ _ p1.2 m1 M1) hS
  rw [← power_law_log hE' hF0 hF hz0 hz1] at hst
  have hw : 0 < z0 * (E' / F0) ^ (Real.log (z1 / z0) / Real.log (F1 / F0)) := by positivity
  generalize z0 * (E' / F0) ^ (Real.log (z1 / z0) / Real.log (F1 / F0)) = w at hst hw ⊢
  have a1 := abs_le.1 hst
  have a2 := abs_le.1 he
  exact pow_within hpw h0 h1 hw hw rfl rfl (by linarith [a1.1, a2.1]) (by linarith [a1.2, a2.2])

end

end Ries
