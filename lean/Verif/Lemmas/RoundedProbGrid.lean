import Verif.Model.RoundedProbGrid
import Verif.Props.RoundedGrid
import Verif.Lemmas.RnIdem
import Verif.Lemmas.NewtonConv
import Mathlib.Analysis.Calculus.MeanValue

/-! # Lemmas on probability grids in rounded arithmetic -/

namespace Ries

/-- the point `i` of `linspaceR` before the last -/
noncomputable def lpt (fl : ℝ → ℝ) (l0 l1 : ℝ) (m i : ℕ) : ℝ := fl (fl (i * fl (fl (l1 - l0) / (m + 1))) + l0)

theorem linspaceR_eq (fl : ℝ → ℝ) (l0 l1 : ℝ) (m : ℕ) :
    linspaceR fl l0 l1 m = lpt fl l0 l1 m 0 :: ((List.range m).map (fun i => lpt fl l0 l1 m (i + 1)) ++ [l1]) := by
  simp [linspaceR, lpt, List.range_succ_eq_map, Function.comp_def]

theorem setEnds_mid (a b y z : Fl) (t : List Fl) : Reso.setEnds a b (y :: (t ++ [z])) = .ok (a :: (t ++ [b])) := by
  obtain ⟨x, t', h⟩ : ∃ x t', t ++ [z] = x :: t' := by cases t <;> simp
  have : (x :: t').dropLast = t := by rw [← h, List.dropLast_concat]
  rw [h]
  simp only [Reso.setEnds]
  rw [this]

/-- the grid of a scipy distribution with infinite support -/
theorem probGridR_eq {pdf cdf ppf : ℝ → ℝ → ℝ → ℝ} {r : Reso} {l s : ℝ}
    (hd : r.dist = scipyDist pdf cdf ppf (fun _ _ => .ninf) (fun _ _ => .pinf)) (hp : r.params = [l, s]) (hs : 0 < s)
    (fl : ℝ → ℝ) (a b : ℝ) (m : ℕ) :
    r.probGridR fl a b m = .ok (some (.fin a :: ((List.range m).map (fun i => (ppfAt .ninf .pinf (ppf l s)
      (.fin (lpt fl (fl (cdf l s a)) (fl (cdf l s b)) m (i + 1)))).rounded fl) ++ [.fin b]))) := by
  unfold Reso.probGridR
  rw [hd, hp]
  simp only [Dist.rounded, scipyDist, locScale, bind, Except.bind, hs, if_true, List.map_cons, List.map_nil, Except.map,
    Fl.rounded, linspaceR_eq, Option.map, List.map_map, List.map_append]
  rw [setEnds_mid]
  rfl

/-- the upper tail of a normal distribution -/
theorem normCdf_upper (l : ℝ) {s : ℝ} (hs : 0 < s) {x : ℝ} (hx : l + 9 * s ≤ x) : 1 - 1 / 2 ^ 54 < normCdf l s x := by
  have h := normPdf_tail l hs (x := x) (by linarith)
  have hpl := (norm_good l hs).pos l
  have e : normPdf l s x ≤ normPdf l s l * (1 / 2 ^ 54) := by
    simp only [normPdf, sub_self, zero_div]
    rw [div_mul_eq_mul_div]
    refine div_le_div_of_nonneg_right ?_ (by positivity)
    norm_num only [neg_zero, Real.exp_zero, one_mul, zero_pow, ne_eq, zero_div, zero_mul]
    have h9 : 9 ≤ (x - l) / s := by rw [le_div_iff₀ hs]; linarith
    have : -((x - l) / s) ^ 2 / 2 ≤ -40 := by nlinarith
    refine (Real.exp_le_exp.2 this).trans ?_
    have h2 : (2 : ℝ) ^ 54 ≤ Real.exp 40 := by
      have : Real.exp 40 = Real.exp 1 ^ 40 := by rw [← Real.exp_nat_mul]; norm_num
      rw [this]
      calc (2 : ℝ) ^ 54 ≤ 2.7 ^ 40 := by norm_num
        _ ≤ _ := pow_le_pow_left₀ (by norm_num) (by linarith [Real.exp_one_gt_d9]) 40
    rw [Real.exp_neg, ← one_div]
    have h3 := one_div_le_one_div_of_le (by norm_num) h2
    norm_num at h3 ⊢
    exact h3
  have h3 : 2 * (1 - normCdf l s x) ≤ 1 / 2 ^ 54 := by
    by_contra hc
    push Not at hc
    have := mul_lt_mul_of_pos_left hc hpl
    nlinarith
  norm_num at h3 ⊢
  linarith

/-- the distribution function grows at most like the largest density -/
theorem GoodCDF.lip {F p : ℝ → ℝ} (h : GoodCDF F p) {M : ℝ} (hM : ∀ x, p x ≤ M) (x y : ℝ) : |F x - F y| ≤ M * |x - y| := by
  have := Convex.norm_image_sub_le_of_norm_hasDerivWithin_le (f := F) (f' := p) (s := Set.univ) (C := M) (x := y) (y := x)
    (fun z _ => (h.deriv z).hasDerivWithinAt) (fun z _ => by rw [Real.norm_of_nonneg (h.pos z).le]; exact hM z) convex_univ
    (Set.mem_univ _) (Set.mem_univ _)
  simpa [Real.norm_eq_abs] using this

theorem rounded_grid_scipy {pdf cdf ppf : ℝ → ℝ → ℝ → ℝ} {r : Reso} {l s : ℝ}
    (hd : r.dist = scipyDist pdf cdf ppf (fun _ _ => .ninf) (fun _ _ => .pinf)) (hp : r.params = [l, s]) (hs : 0 < s)
    (hg : GoodCDF (cdf l s) (pdf l s)) (hQ : ∀ q, 0 < q → q < 1 → cdf l s (ppf l s q) = q) {M : ℝ}
    (hM : ∀ x, pdf l s x ≤ M) {fl : ℝ → ℝ} {u : ℝ} (hu : 0 ≤ u) (hfl : Rounding u fl) (hmono : Monotone fl)
    (hidem : ∀ x, fl (fl x) = fl x) (h1 : fl 1 = 1) {a b : ℝ} (ha : fl a = a) (hb : fl b = b) (m : ℕ)
    (hab : a < b) (hF : 12 * u * (m + 1) ≤ cdf l s b - cdf l s a) :
    ∃ g : List ℝ, r.probGridR fl a b m = .ok (some (g.map .fin)) ∧ g.length = m + 2 ∧ g.head? = some a ∧
      g.getLast? = some b ∧ OrderedInside a b g ∧ ∀ i, (h : i < g.length) →
        |cdf l s g[i] - (cdf l s a + i * ((cdf l s b - cdf l s a) / (m + 1)))| ≤ u * (12 + M * max |a| |b|) := by
  set F := cdf l s
  set Q := ppf l s
  have hm0 : (0 : ℝ) ≤ m := Nat.cast_nonneg m
  have hm1 : (0 : ℝ) < m + 1 := by linarith
  have Fa0 := hg.gt_zero a
  have Fa1 := hg.lt_one a
  have Fb0 := hg.gt_zero b
  have Fb1 := hg.lt_one b
  have hFab := hg.strictMono hab
  set l0 := fl (F a) with hl0
  set l1 := fl (F b) with hl1
  have f0 : fl 0 = 0 := by simpa using hfl 0
  have a1 : |l0 - F a| ≤ u := (hfl _).trans (by rw [abs_of_pos Fa0]; nlinarith)
  have b1 : |l1 - F b| ≤ u := (hfl _).trans (by rw [abs_of_pos Fb0]; nlinarith)
  have l01 : l0 ≤ l1 := hmono hFab.le
  have l0n : 0 ≤ l0 := by rw [← f0]; exact hmono Fa0.le
  have l1n : l1 ≤ 1 := by rw [← h1]; exact hmono Fb1.le
  have hmax : max |l0| |l1| ≤ 1 := max_le (by rw [abs_of_nonneg l0n]; linarith) (by rw [abs_of_nonneg (l0n.trans l01)]; exact l1n)
  have hm4 : 4 * u * (m + 1) ≤ 1 := by nlinarith
  obtain ⟨-, -, -, ⟨gs, -⟩, gd⟩ := C93_rounded_grid hu hfl hmono l01 (hidem _) (hidem _) m hm4
  set q : ℕ → ℝ := fun i => lpt fl l0 l1 m (i + 1) with hq
  rw [linspaceR_eq] at gs
  have qsort : ((List.range m).map q).Pairwise (· ≤ ·) := (List.pairwise_append.1 (List.pairwise_cons.1 gs).2).1
  have qd : ∀ i, i < m → |q i - (l0 + (i + 1) * ((l1 - l0) / (m + 1)))| ≤ 9 * u := by
    intro i hi
    have h2 := gd (i + 1) (by simp [linspaceR]; omega)
    have e : (linspaceR fl l0 l1 m)[i + 1]'(by simp [linspaceR]; omega) = q i := by
      simp only [linspaceR_eq, List.getElem_cons_succ]
      rw [List.getElem_append_left (by simpa using hi)]
      simp [hq]
    rw [e] at h2
    push_cast at h2
    refine h2.trans ?_
    nlinarith
  set D := (F b - F a) / (m + 1) with hD
  have eD : D * (m + 1) = F b - F a := by rw [hD]; field_simp
  have hDu : 12 * u ≤ D := by
    by_contra hc
    push Not at hc
    nlinarith
  -- the quantiles against the exact ones
  have qe : ∀ i, i < m → |q i - (F a + (i + 1) * D)| ≤ 10 * u := by
    intro i hi
    have hi' : ((i : ℝ) + 1) / (m + 1) ≤ 1 := by
      rw [div_le_one hm1]; have : (i : ℝ) < m := by exact_mod_cast hi
      linarith
    have hi0 : 0 ≤ ((i : ℝ) + 1) / (m + 1) := by positivity
    set t := ((i : ℝ) + 1) / (m + 1)
    have e1 : ((i : ℝ) + 1) * ((l1 - l0) / (m + 1)) = t * (l1 - l0) := by simp only [t]; ring
    have e2 : ((i : ℝ) + 1) * D = t * (F b - F a) := by simp only [t, hD]; ring
    have h2 := qd i hi
    rw [e1] at h2
    rw [e2]
    have a1' := abs_le.1 a1
    have b1' := abs_le.1 b1
    have h2' := abs_le.1 h2
    have k1 : 0 ≤ t * (u - (l1 - F b)) := mul_nonneg hi0 (by linarith)
    have k2 : 0 ≤ t * (u + (l1 - F b)) := mul_nonneg hi0 (by linarith)
    have k3 : 0 ≤ (1 - t) * (u - (l0 - F a)) := mul_nonneg (by linarith) (by linarith)
    have k4 : 0 ≤ (1 - t) * (u + (l0 - F a)) := mul_nonneg (by linarith) (by linarith)
    rw [abs_le]
    constructor <;> linarith
  have qin : ∀ i, i < m → F a ≤ q i ∧ q i ≤ F b := by
    intro i hi
    have h2 := abs_le.1 (qe i hi)
    have hi' : (i : ℝ) + 1 ≤ m := by exact_mod_cast hi
    have hi0 : (0 : ℝ) ≤ i := Nat.cast_nonneg i
    have hDn : 0 ≤ D := by linarith
    have k1 : D ≤ ((i : ℝ) + 1) * D := le_mul_of_one_le_left hDn (by linarith)
    have k2 : ((i : ℝ) + 1) * D ≤ m * D := mul_le_mul_of_nonneg_right hi' hDn
    constructor
    · linarith
    · linarith
  have Qin : ∀ i, i < m → a ≤ Q (q i) ∧ Q (q i) ≤ b := by
    intro i hi
    obtain ⟨x1, x2⟩ := qin i hi
    rw [← hg.strictMono.le_iff_le (a := a), ← hg.strictMono.le_iff_le (b := b), hQ _ (by linarith) (by linarith)]
    exact ⟨x1, x2⟩
  have Rin : ∀ i, i < m → a ≤ fl (Q (q i)) ∧ fl (Q (q i)) ≤ b := by
    intro i hi
    obtain ⟨x1, x2⟩ := Qin i hi
    have y1 := hmono x1
    have y2 := hmono x2
    rw [ha] at y1
    rw [hb] at y2
    exact ⟨y1, y2⟩
  have hM0 : 0 ≤ M := (hg.pos 0).le.trans (hM 0)
  have hX0 : 0 ≤ max |a| |b| := le_max_of_le_left (abs_nonneg _)
  refine ⟨a :: ((List.range m).map (fun i => fl (Q (q i))) ++ [b]), ?_, by simp, rfl, by rw [← List.cons_append, List.getLast?_append]; rfl, ⟨?_, ?_⟩, ?_⟩
  · rw [probGridR_eq hd hp hs]
    simp only [List.map_cons, List.map_append, List.map_nil, List.map_map]
    congr 4
    apply List.map_congr_left
    intro i hi
    obtain ⟨x1, x2⟩ := qin i (List.mem_range.1 hi)
    have z0 : 0 < q i := by linarith
    have z1 : q i < 1 := by linarith
    have : ppfAt .ninf .pinf Q (.fin (q i)) = .fin (Q (q i)) := by simp [ppfAt, z0, z1, z0.ne', z1.ne]
    show (ppfAt .ninf .pinf Q (.fin (q i))).rounded fl = _
    rw [this]
    rfl
  · rw [List.pairwise_cons]
    constructor
    · intro x hx
      rcases List.mem_append.1 hx with hx | hx
      · obtain ⟨i, hi, rfl⟩ := List.mem_map.1 hx
        exact (Rin i (List.mem_range.1 hi)).1
      · rw [List.mem_singleton] at hx; rw [hx]; exact hab.le
    · rw [List.pairwise_append]
      refine ⟨?_, by simp, ?_⟩
      · rw [List.pairwise_map] at qsort ⊢
        refine (List.pairwise_iff_getElem.2 fun i j hi hj hij => ?_)
        have hs2 := List.pairwise_iff_getElem.1 qsort i j hi hj hij
        simp only [List.length_range] at hi hj
        simp only [List.getElem_range] at hs2 ⊢
        apply hmono
        obtain ⟨x1, x2⟩ := qin i hi
        obtain ⟨y1, y2⟩ := qin j hj
        rw [← hg.strictMono.le_iff_le, hQ _ (by linarith) (by linarith), hQ _ (by linarith) (by linarith)]
        exact hs2
      · intro x hx y hy
        obtain ⟨i, hi, rfl⟩ := List.mem_map.1 hx
        rw [List.mem_singleton] at hy
        rw [hy]
        exact (Rin i (List.mem_range.1 hi)).2
  · intro x hx
    rcases List.mem_cons.1 hx with rfl | hx
    · exact ⟨le_rfl, hab.le⟩
    rcases List.mem_append.1 hx with hx | hx
    · obtain ⟨i, hi, rfl⟩ := List.mem_map.1 hx
      exact Rin i (List.mem_range.1 hi)
    · rw [List.mem_singleton] at hx; rw [hx]; exact ⟨hab.le, le_rfl⟩
  · intro i h
    have hi : i < m + 2 := by
      have h' := h
      simp only [List.length_cons, List.length_append, List.length_map, List.length_range, List.length_nil] at h'
      omega
    rcases Nat.eq_zero_or_pos i with rfl | hpos
    · simp only [List.getElem_cons_zero, Nat.cast_zero, zero_mul, add_zero, sub_self, abs_zero]
      positivity
    obtain ⟨j, rfl⟩ : ∃ j, i = j + 1 := ⟨i - 1, by omega⟩
    simp only [List.getElem_cons_succ]
    rcases Nat.lt_or_ge j m with hj | hj
    · rw [List.getElem_append_left (by simpa using hj)]
      simp only [List.getElem_map, List.getElem_range]
      obtain ⟨x1, x2⟩ := qin j hj
      obtain ⟨y1, y2⟩ := Qin j hj
      have k1 := hg.lip hM (fl (Q (q j))) (Q (q j))
      rw [hQ _ (by linarith) (by linarith)] at k1
      have k2 : |Q (q j)| ≤ max |a| |b| := abs_le_max_abs_abs y1 y2
      have k3 := (hfl (Q (q j))).trans (mul_le_mul_of_nonneg_left k2 hu)
      have k4 := mul_le_mul_of_nonneg_left k3 hM0
      have k5 := qe j hj
      push_cast
      calc |F (fl (Q (q j))) - (F a + (j + 1) * D)| = |(F (fl (Q (q j))) - q j) + (q j - (F a + (j + 1) * D))| := by congr 1; ring
        _ ≤ _ := abs_add_le _ _
        _ ≤ M * (u * max |a| |b|) + 10 * u := add_le_add (k1.trans k4) k5
        _ ≤ _ := by nlinarith
    · have hj' : j = m := by omega
      subst hj'
      rw [List.getElem_append_right (by simp)]
      simp only [List.length_map, List.length_range, Nat.sub_self, List.getElem_cons_zero]
      push_cast
      rw [mul_comm, eD]
      simp only [add_sub_cancel, sub_self, abs_zero]
      positivity

end Ries
