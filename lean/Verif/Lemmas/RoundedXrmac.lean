import Verif.Model.RoundedXrmac
import Verif.Spec.RoundedXrmac
import Verif.Lemmas.Xrmac

/-! # Lemmas on rounded interpolation -/

namespace Ries

theorem npInterpR_at {fl : ℝ → ℝ} {x : ℝ} {y : Fl} (pre post : List (ℝ × Fl)) (h1 : ∀ p ∈ pre, p.1 ≤ x)
    (h2 : ∀ p ∈ post, x < p.1) : npInterpR fl (pre ++ (x, y) :: post) x = y := by
  induction pre with
  | nil =>
    cases post with
    | nil => rfl
    | cons q post =>
      have := h2 q (by simp)
      obtain ⟨q1, q2⟩ := q
      simp only [List.nil_append, npInterpR]
      rw [if_neg (not_le.2 this), if_pos trivial]
  | cons p pre ih =>
    obtain ⟨p1, p2⟩ := p
    have ih := ih fun q hq => h1 q (by simp [hq])
    cases pre with
    | nil =>
      simp only [List.nil_append, List.cons_append, npInterpR] at ih ⊢
      rw [if_pos le_rfl, ih]
    | cons q pre =>
      obtain ⟨q1, q2⟩ := q
      simp only [List.cons_append, npInterpR] at ih ⊢
      have := h1 (q1, q2) (by simp)
      simp only at this
      rw [if_pos this]
      exact ih

theorem npInterpR_sort_at {fl : ℝ → ℝ} {x : ℝ} {y : Fl} (pre post : List (ℝ × Fl)) (h2 : ∀ p ∈ post, p.1 ≠ x) :
    npInterpR fl (sortNodes (pre ++ (x, y) :: post)) x = y := by
  set t := pre ++ (x, y) :: post with ht
  have hf : t.filter (fun a => decide (a.1 = x)) =
      pre.filter (fun a => decide (a.1 = x)) ++ [(x, y)] := by
    rw [ht, List.filter_append, List.filter_cons]
    have : post.filter (fun a => decide (a.1 = x)) = [] := by
      rw [List.filter_eq_nil_iff]
      intro b hb
      simpa using h2 b hb
    simp [this]
  rw [sorted_split _ (sortNodes_pairwise t) x, sortNodes_filter, hf]
  rw [List.append_assoc, ← List.append_assoc, List.singleton_append]
  refine npInterpR_at _ _ ?_ ?_
  · intro p hp
    rcases List.mem_append.1 hp with hp | hp
    · exact le_of_lt (by simpa using (List.mem_filter.1 hp).2)
    · exact le_of_eq (by simpa using (List.mem_filter.1 hp).2)
  · intro p hp
    simpa using (List.mem_filter.1 hp).2

theorem npInterpR_between {fl : ℝ → ℝ} {x x0 x1 : ℝ} {y0 y1 : Fl} (pre post : List (ℝ × Fl))
    (h1 : ∀ p ∈ pre, p.1 ≤ x) (h2 : x0 < x) (h3 : x < x1) :
    npInterpR fl (pre ++ (x0, y0) :: (x1, y1) :: post) x = lerpR fl x0 y0 x1 y1 x := by
  induction pre with
  | nil =>
    simp only [List.nil_append, npInterpR]
    rw [if_neg (not_le.2 h3), if_neg (ne_of_gt h2)]
  | cons p pre ih =>
    obtain ⟨p1, p2⟩ := p
    have ih := ih fun q hq => h1 q (by simp [hq])
    cases pre with
    | nil =>
      simp only [List.nil_append, List.cons_append, npInterpR] at ih ⊢
      rw [if_pos h2.le]
      exact ih
    | cons q pre =>
      obtain ⟨q1, q2⟩ := q
      simp only [List.cons_append, npInterpR] at ih ⊢
      have := h1 (q1, q2) (by simp)
      simp only at this
      rw [if_pos this]
      exact ih

theorem interp1dR_inside {fl : ℝ → ℝ} {t : List (ℝ × Fl)} {below above : Fl} {x : ℝ} {a b : ℝ × Fl} (ha : a ∈ t)
    (hb : b ∈ t) (h1 : a.1 ≤ x) (h2 : x ≤ b.1) :
    interp1dR fl t below above x = npInterpR fl (sortNodes t) x := by
  have hne : sortNodes t ≠ [] := by
    intro h
    have := mem_sortNodes.2 ha
    rw [h] at this
    simp at this
  obtain ⟨p, hp⟩ : ∃ p, (sortNodes t).head? = some p := by
    cases h : sortNodes t with
    | nil => exact absurd h hne
    | cons p s => exact ⟨p, rfl⟩
  obtain ⟨q, hq⟩ : ∃ q, (sortNodes t).getLast? = some q := ⟨_, List.getLast?_eq_getLast_of_ne_nil hne⟩
  have b1 := (sorted_bounds (sortNodes_pairwise t) hp hq (mem_sortNodes.2 ha)).1
  have b2 := (sorted_bounds (sortNodes_pairwise t) hp hq (mem_sortNodes.2 hb)).2
  simp only [interp1dR, hp, hq]
  rw [if_neg (by linarith), if_neg (by linarith)]

/-- at a node the value does not depend on the arithmetic -/
theorem xrmacCallR_node {fl lg pw : ℝ → ℝ} {t pre post : Table} {E y E' : ℝ} (h : t = pre ++ (E, y) :: post)
    (hE : lg E' = lg E) (hpost : ∀ r ∈ post, lg r.1 ≠ lg E) : xrmacCallR fl lg pw t E' = .ok (.fin (pw (lg y))) := by
  have hne : t ≠ [] := by simp [h]
  obtain ⟨p, hp⟩ : ∃ p, t.head? = some p := by
    cases h' : t with
    | nil => exact absurd h' hne
    | cons p s => exact ⟨p, rfl⟩
  obtain ⟨q, hq⟩ : ∃ q, t.getLast? = some q := ⟨_, List.getLast?_eq_getLast_of_ne_nil hne⟩
  have hmem : (E, y) ∈ t := by simp [h]
  have hnode : (lg E, Fl.fin (lg y)) ∈ t.map fun r => (lg r.1, Fl.fin (lg r.2)) := List.mem_map.2 ⟨_, hmem, rfl⟩
  simp only [xrmacCallR, hp, hq, hE]
  rw [interp1dR_inside hnode hnode le_rfl le_rfl]
  have hn : (t.map fun r => (lg r.1, Fl.fin (lg r.2))) = (pre.map fun r => (lg r.1, Fl.fin (lg r.2))) ++
      (lg E, Fl.fin (lg y)) :: post.map fun r => (lg r.1, Fl.fin (lg r.2)) := by
    simp [h]
  rw [hn, npInterpR_sort_at]
  · rfl
  intro p hp
  obtain ⟨r, hr, rfl⟩ := List.mem_map.1 hp
  exact hpost r hr

/-- between neighbouring rows -/
theorem xrmacCallR_between {fl lg pw : ℝ → ℝ} {t pre post : Table} {E E0 E1 y0 y1 : ℝ}
    (h : t = pre ++ (E0, y0) :: (E1, y1) :: post) (hs : t.Pairwise fun a b => lg a.1 ≤ lg b.1)
    (h0 : lg E0 < lg E) (h1 : lg E < lg E1) :
    xrmacCallR fl lg pw t E = .ok (.fin (pw (fl (fl (fl (fl (lg y1 - lg y0) / fl (lg E1 - lg E0)) *
      fl (lg E - lg E0)) + lg y0)))) := by
  have hne : t ≠ [] := by simp [h]
  obtain ⟨p, hp⟩ : ∃ p, t.head? = some p := by
    cases h' : t with
    | nil => exact absurd h' hne
    | cons p s => exact ⟨p, rfl⟩
  obtain ⟨q, hq⟩ : ∃ q, t.getLast? = some q := ⟨_, List.getLast?_eq_getLast_of_ne_nil hne⟩
  have m0 : (E0, y0) ∈ t := by simp [h]
  have m1 : (E1, y1) ∈ t := by simp [h]
  have n0 : (lg E0, Fl.fin (lg y0)) ∈ t.map fun r => (lg r.1, Fl.fin (lg r.2)) := List.mem_map.2 ⟨_, m0, rfl⟩
  have n1 : (lg E1, Fl.fin (lg y1)) ∈ t.map fun r => (lg r.1, Fl.fin (lg r.2)) := List.mem_map.2 ⟨_, m1, rfl⟩
  simp only [xrmacCallR, hp, hq]
  rw [interp1dR_inside n0 n1 h0.le h1.le]
  have hsort : (t.map fun r => (lg r.1, Fl.fin (lg r.2))).Pairwise fun a b => a.1 ≤ b.1 := by
    rw [List.pairwise_map]
    exact hs
  have hn : (t.map fun r => (lg r.1, Fl.fin (lg r.2))) = (pre.map fun r => (lg r.1, Fl.fin (lg r.2))) ++
      (lg E0, Fl.fin (lg y0)) :: (lg E1, Fl.fin (lg y1)) :: post.map fun r => (lg r.1, Fl.fin (lg r.2)) := by
    simp [h]
  rw [sortNodes_of_sorted hsort, hn, npInterpR_between _ _ ?_ h0 h1]
  · rfl
  intro p hp
  obtain ⟨r, hr, rfl⟩ := List.mem_map.1 hp
  rw [h, List.pairwise_append] at hs
  exact (hs.2.2 r hr (E0, y0) (by simp)).trans h0.le

/-- the interpolated logarithm stays between its neighbours, up to rounding -/
theorem lerpR_range {u : ℝ} {fl : ℝ → ℝ} (hu : Rounding u fl) (hu0 : 0 ≤ u) (hu1 : u ≤ 1 / 100) (hm : Monotone fl)
    {a b D d M : ℝ} (ha : |a| ≤ M) (hb : |b| ≤ M) (hd : 0 ≤ d) (hdD : d ≤ D) (hD : 0 < D) :
    min a b - 8 * u * M ≤ fl (fl (fl (fl (b - a) / D) * d) + a) ∧
      fl (fl (fl (fl (b - a) / D) * d) + a) ≤ max a b + 8 * u * M := by
  have hM : 0 ≤ M := (abs_nonneg a).trans ha
  have f0 : fl 0 = 0 := by simpa using hu 0
  have pos : ∀ x, 0 ≤ x → 0 ≤ fl x := fun x hx => by rw [← f0]; exact hm hx
  have neg : ∀ x, x ≤ 0 → fl x ≤ 0 := fun x hx => by rw [← f0]; exact hm hx
  have up : ∀ x, |fl x| ≤ (1 + u) * |x| := fun x => by
    have := hu x
    have t : |fl x| ≤ |fl x - x| + |x| := by simpa using abs_add_le (fl x - x) x
    linarith
  set w := fl (fl (fl (b - a) / D) * d) with hw
  have hwabs : |w| ≤ (1 + u) ^ 3 * |b - a| := by
    have h1 := up (fl (fl (b - a) / D) * d)
    have h2 := up (fl (b - a) / D)
    have h3 := up (b - a)
    rw [abs_mul, abs_of_nonneg hd] at h1
    rw [abs_div, abs_of_pos hD] at h2
    have h4 : |fl (fl (b - a) / D)| * d ≤ (1 + u) * |fl (b - a)| := by
      calc _ ≤ (1 + u) * (|fl (b - a)| / D) * D :=
            mul_le_mul h2 hdD hd (by positivity)
        _ = _ := by field_simp
    calc |w| ≤ (1 + u) * (|fl (fl (b - a) / D)| * d) := h1
      _ ≤ (1 + u) * ((1 + u) * |fl (b - a)|) := by gcongr
      _ ≤ (1 + u) * ((1 + u) * ((1 + u) * |b - a|)) := by gcongr
      _ = _ := by ring
  have hcube : (1 + u) ^ 3 ≤ 1 + 31 / 10 * u := by nlinarith [mul_nonneg hu0 hu0]
  have hba : |b - a| ≤ 2 * M := by
    have := abs_sub b a
    linarith
  have hk : |w| ≤ |b - a| + 31 / 5 * u * M := by
    have : (1 + u) ^ 3 * |b - a| ≤ (1 + 31 / 10 * u) * |b - a| := by gcongr
    have : u * |b - a| ≤ u * (2 * M) := by gcongr
    linarith
  have hsum : min a b - 31 / 5 * u * M ≤ w + a ∧ w + a ≤ max a b + 31 / 5 * u * M := by
    have huM : 0 ≤ u * M := mul_nonneg hu0 hM
    rcases le_total a b with hab | hab
    · have hw0 : 0 ≤ w := pos _ (mul_nonneg (pos _ (div_nonneg (pos _ (sub_nonneg.2 hab)) hD.le)) hd)
      rw [abs_of_nonneg hw0, abs_of_nonneg (sub_nonneg.2 hab)] at hk
      rw [min_eq_left hab, max_eq_right hab]
      constructor <;> linarith
    · have hw0 : w ≤ 0 := neg _ (mul_nonpos_of_nonpos_of_nonneg
        (neg _ (div_nonpos_of_nonpos_of_nonneg (neg _ (sub_nonpos.2 hab)) hD.le)) hd)
      rw [abs_of_nonpos hw0, abs_of_nonpos (sub_nonpos.2 hab)] at hk
      rw [min_eq_right hab, max_eq_left hab]
      constructor <;> linarith
  have hlast := hu (w + a)
  have habs : |w + a| ≤ (1 + 31 / 5 * u) * M := by
    have h1 : -M ≤ min a b := le_min (neg_le_of_abs_le ha) (neg_le_of_abs_le hb)
    have h2 : max a b ≤ M := max_le (le_of_abs_le ha) (le_of_abs_le hb)
    rw [abs_le]
    constructor <;> linarith [hsum.1, hsum.2]
  have hfin : u * |w + a| ≤ 9 / 5 * u * M := by
    have h1 : u * |w + a| ≤ u * ((1 + 31 / 5 * u) * M) := by gcongr
    have h2 : (1 + 31 / 5 * u) * M ≤ 9 / 5 * M := by
      refine mul_le_mul_of_nonneg_right ?_ hM
      linarith
    have h3 := mul_le_mul_of_nonneg_left h2 hu0
    linarith
  have := abs_le.1 hlast
  constructor <;> linarith [hsum.1, hsum.2]

/-- the power of a number between two logarithms -/
theorem pow_within {δ η L0 L1 z : ℝ} {pw : ℝ → ℝ} (hp : PowApprox δ pw) (h0 : 0 ≤ δ) (h1 : δ ≤ 1) {lo hi : ℝ} (hlo : 0 < lo)
    (hhi : 0 < hi) (e0 : L0 = Real.logb 10 lo) (e1 : L1 = Real.logb 10 hi) (hz0 : L0 - η ≤ z) (hz1 : z ≤ L1 + η) :
    Within δ η lo hi (pw z) := by
  have hz := abs_le.1 (hp z)
  have p0 : (10 : ℝ) ^ (-η) * lo ≤ (10 : ℝ) ^ z := by
    rw [← pow_logb hlo, ← Real.rpow_add (by norm_num), ← e0]
    exact Real.rpow_le_rpow_of_exponent_le (by norm_num) (by linarith)
  have p1 : (10 : ℝ) ^ z ≤ (10 : ℝ) ^ η * hi := by
    rw [← pow_logb hhi, ← Real.rpow_add (by norm_num), ← e1]
    exact Real.rpow_le_rpow_of_exponent_le (by norm_num) (by linarith)
  constructor
  · have := mul_le_mul_of_nonneg_left p0 (sub_nonneg.2 h1)
    linarith
  · have := mul_le_mul_of_nonneg_left p1 (by linarith : 0 ≤ 1 + δ)
    linarith

end Ries
