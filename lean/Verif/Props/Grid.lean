import Verif.Lemmas.Resonance
import Verif.Spec.Examples

/-! # Properties C10 - C15: energy grids -/

open MeasureTheory

namespace Ries

/-! ## C10 -/

/-- C10: the equidistant energy grid over `(a,b)` with `n ≥ 2` points. -/
theorem C10_energy_grid (a b : ℝ) (n : ℤ) (hn : 2 ≤ n) :
    ∃ g : List ℝ, energyGrid (.lims a b) n = .ok (g.map .fin) ∧ (g.length : ℤ) = n ∧
      g.head? = some a ∧ g.getLast? = some b ∧
      (∀ i, (h : i + 1 < g.length) → g[i + 1] - g[i] = (b - a) / (n - 1)) ∧
      (a ≤ b → g.Pairwise (· ≤ ·) ∧ ∀ x ∈ g, a ≤ x ∧ x ≤ b) := by
  obtain ⟨m, rfl⟩ : ∃ m : ℕ, n = (m : ℤ) + 2 := ⟨(n - 2).toNat, by omega⟩
  refine ⟨qgrid id a b m, ?_, ?_, ?_, ?_, ?_, ?_⟩
  · simp only [energyGrid, linspace_nat, qgrid, List.map_map, Function.comp_def, id]
  · rw [qgrid_length]; push_cast; ring
  · exact qgrid_head id a b m
  · exact qgrid_last id a b m
  · intro i h
    rw [qgrid_get, qgrid_get]
    have : (((m : ℤ) + 2 : ℤ) : ℝ) - 1 = m + 1 := by push_cast; ring
    rw [this]
    simp only [id]
    push_cast
    ring
  · intro hab
    refine ⟨?_, ?_⟩
    · unfold qgrid
      rw [List.pairwise_map]
      refine List.pairwise_lt_range.imp ?_
      intro i j hij
      have hm : (0 : ℝ) < m + 1 := by positivity
      have h0 : 0 ≤ (b - a) / (m + 1) := div_nonneg (by linarith) hm.le
      have : (i : ℝ) ≤ j := by exact_mod_cast hij.le
      have := mul_le_mul_of_nonneg_right this h0
      simp only [id]
      linarith
    · intro x hx
      simp only [qgrid, List.mem_map, List.mem_range] at hx
      obtain ⟨i, hi, rfl⟩ := hx
      exact linspace_mem hab m hi

/-- C10, small and invalid sizes; a coverage is no pair of limits. -/
theorem C10_energy_grid_small (a b c : ℝ) (n : ℤ) :
    energyGrid (.lims a b) 1 = .ok [.fin a] ∧ energyGrid (.lims a b) 0 = .ok [] ∧
    (n < 0 → energyGrid (.lims a b) n = .error .valueError) ∧
    energyGrid (.cov c) n = .error .typeError :=
  ⟨linspace_one a b, linspace_zero (.fin a) (.fin b), fun h => linspace_neg (.fin a) (.fin b) h, rfl⟩

example : (2 : ℤ) ≤ 5 := by norm_num
example : ∃ g : List ℝ, energyGrid (.lims 0 4) 5 = .ok (g.map .fin) ∧ g = [0, 1, 2, 3, 4] := by
  refine ⟨_, ?_, rfl⟩
  have := linspace_nat 0 4 3
  simp only [energyGrid]
  norm_num [List.range_succ] at this ⊢
  exact this

/-! ## C13 -/

/-- `g` is nondecreasing and stays between the limits. -/
def OrderedInside (a b : ℝ) (g : List ℝ) : Prop := g.Pairwise (· ≤ ·) ∧ ∀ x ∈ g, a ≤ x ∧ x ≤ b

/-- The grid of the box shape, explicitly. -/
theorem box_grid {k : PhysConst} {init inter : Level} {final : Option Level} {R : ℝ → ℝ} {r : Reso}
    (h : mkResonance k init inter final R = .ok r) (a b : ℝ) (m : ℕ) :
    r.probGrid (.lims a b) ((m : ℤ) + 2) = .ok (some ((a :: ((List.range m).map fun i : ℕ =>
      r.er - 0.5 + (uniformCdf (r.er - 0.5) 1 a + (i + 1) *
        ((uniformCdf (r.er - 0.5) 1 b - uniformCdf (r.er - 0.5) 1 a) / (m + 1))) ) ++ [b]).map .fin)) := by
  obtain ⟨-, -, -, -, -, -, -, hd, hp⟩ := mkResonance_inv h
  have hm : (m : ℝ) + 1 ≠ 0 := by positivity
  have key : ∀ q : ℝ, 0 ≤ q → q ≤ 1 →
      ppfAt (Fl.fin (r.er - 0.5)) (Fl.fin (r.er - 0.5 + 1)) (fun q => r.er - 0.5 + 1 * q) (.fin q)
        = .fin (r.er - 0.5 + q) := by
    intro q h0 h1
    unfold ppfAt
    by_cases hq0 : q = 0
    · simp [hq0]
    by_cases hq1 : q = 1
    · simp [hq1]
    have : 0 < q ∧ q < 1 := ⟨lt_of_le_of_ne h0 (Ne.symm hq0), lt_of_le_of_ne h1 hq1⟩
    simp [hq0, hq1, this]
  have hc : ∀ x, 0 ≤ uniformCdf (r.er - 0.5) 1 x ∧ uniformCdf (r.er - 0.5) 1 x ≤ 1 := by
    intro x; unfold uniformCdf
    exact ⟨le_max_left _ _, max_le zero_le_one (min_le_left _ _)⟩
  have hmem : ∀ i ∈ List.range (m + 2), 0 ≤ uniformCdf (r.er - 0.5) 1 a + i *
        ((uniformCdf (r.er - 0.5) 1 b - uniformCdf (r.er - 0.5) 1 a) / (m + 1)) ∧
        uniformCdf (r.er - 0.5) 1 a + i *
        ((uniformCdf (r.er - 0.5) 1 b - uniformCdf (r.er - 0.5) 1 a) / (m + 1)) ≤ 1 := by
    intro i hi
    simp only [List.mem_range] at hi
    have ha := hc a; have hb := hc b
    generalize uniformCdf (r.er - 0.5) 1 a = u at *
    generalize uniformCdf (r.er - 0.5) 1 b = v at *
    have hm' : (0 : ℝ) < m + 1 := by positivity
    have hi' : (i : ℝ) ≤ m + 1 := by exact_mod_cast (by omega : i ≤ m + 1)
    have e : u + i * ((v - u) / (m + 1)) = (1 - i / (m + 1)) * u + i / (m + 1) * v := by
      field_simp; ring
    have ht0 : 0 ≤ (i : ℝ) / (m + 1) := by positivity
    have ht1 : (i : ℝ) / (m + 1) ≤ 1 := by rw [div_le_one hm']; exact hi'
    rw [e]
    constructor <;> nlinarith
  have hppf : r.dist.ppf r.params ((List.range (m + 2)).map fun i : ℕ => Fl.fin
      (uniformCdf (r.er - 0.5) 1 a + i * ((uniformCdf (r.er - 0.5) 1 b - uniformCdf (r.er - 0.5) 1 a) / (m + 1))))
      = .ok (some ((List.range (m + 2)).map fun i : ℕ => Fl.fin (r.er - 0.5 +
      (uniformCdf (r.er - 0.5) 1 a + i * ((uniformCdf (r.er - 0.5) 1 b - uniformCdf (r.er - 0.5) 1 a) / (m + 1)))))) := by
    rw [hd, hp]
    simp only [uniformDist, scipyDist, locScale, bind, Except.bind, zero_lt_one, if_true, List.map_map]
    congr 2
    apply List.map_congr_left
    intro i hi
    exact key _ (hmem i hi).1 (hmem i hi).2
  have hcdf : r.dist.cdf r.params [a, b] = .ok [.fin (uniformCdf (r.er - 0.5) 1 a), .fin (uniformCdf (r.er - 0.5) 1 b)] := by
    rw [hd, hp]
    simp [uniformDist, scipyDist, locScale, bind, Except.bind]
  unfold Reso.probGrid
  simp only [hcdf, bind, Except.bind, linspace_nat, hppf]
  rw [List.range_succ_eq_map, List.range_succ]
  simp only [List.map_cons, List.map_append, List.map_map, List.map_nil]
  generalize uniformCdf (r.er - 0.5) 1 a = u
  generalize uniformCdf (r.er - 0.5) 1 b = v
  have hne : ∀ (x : Fl) (l : List Fl) (y z w : Fl), Reso.setEnds z w (x :: (l ++ [y])) = .ok (z :: (l ++ [w])) := by
    intro x l y z w
    cases l with
    | nil => rfl
    | cons p l =>
      have e : (p :: (l ++ [y])).dropLast = p :: l := by
        rw [show p :: (l ++ [y]) = (p :: l) ++ [y] from rfl, List.dropLast_concat]
      show Except.ok (z :: ((p :: (l ++ [y])).dropLast ++ [w])) = _
      rw [e]
  rw [hne]
  simp [Except.map, Function.comp_def]

/-- C13 for the box: with at least three points the grid is ordered and inside the limits exactly when
the limits overlap the box. -/
theorem C13_box_iff {k : PhysConst} {init inter : Level} {final : Option Level} {R : ℝ → ℝ} {r : Reso}
    (h : mkResonance k init inter final R = .ok r) {a b : ℝ} (hab : a < b) (n : ℤ) (hn : 3 ≤ n) :
    ∃ g : List ℝ, r.probGrid (.lims a b) n = .ok (some (g.map .fin)) ∧ (g.length : ℤ) = n ∧
      (OrderedInside a b g ↔ a ≤ r.er + 0.5 ∧ r.er - 0.5 ≤ b) := by
  obtain ⟨m, rfl⟩ : ∃ m : ℕ, n = ((m + 1 : ℕ) : ℤ) + 2 := ⟨(n - 3).toNat, by omega⟩
  refine ⟨_, box_grid h a b (m + 1), by simp; ring, ?_⟩
  set u := uniformCdf (r.er - 0.5) 1 a with hu
  set v := uniformCdf (r.er - 0.5) 1 b with hv
  have hm : (0 : ℝ) < ((m + 1 : ℕ) : ℝ) + 1 := by positivity
  constructor
  · rintro ⟨-, hin⟩
    have h1 := hin (r.er - 0.5 + (u + ((0 : ℕ) + 1) * ((v - u) / (((m + 1 : ℕ) : ℝ) + 1)))) (by
      simp only [List.mem_cons, List.mem_append, List.mem_map, List.mem_range]
      exact Or.inl (Or.inr ⟨0, by omega, rfl⟩))
    have hu0 : 0 ≤ u ∧ u ≤ 1 := ⟨le_max_left _ _, max_le zero_le_one (min_le_left _ _)⟩
    have hv0 : 0 ≤ v ∧ v ≤ 1 := ⟨le_max_left _ _, max_le zero_le_one (min_le_left _ _)⟩
    have hm2 : (2 : ℝ) ≤ ((m + 1 : ℕ) : ℝ) + 1 := by push_cast; linarith [(Nat.cast_nonneg m : (0:ℝ) ≤ m)]
    have hq : u + ((0 : ℕ) + 1) * ((v - u) / (((m + 1 : ℕ) : ℝ) + 1)) =
        (1 - 1 / (((m + 1 : ℕ) : ℝ) + 1)) * u + 1 / (((m + 1 : ℕ) : ℝ) + 1) * v := by
      field_simp; push_cast; ring
    rw [hq] at h1
    have ht0 : 0 < 1 / (((m + 1 : ℕ) : ℝ) + 1) := by positivity
    have ht1 : 1 / (((m + 1 : ℕ) : ℝ) + 1) < 1 := by rw [div_lt_one hm]; linarith
    generalize 1 / (((m + 1 : ℕ) : ℝ) + 1) = t at *
    constructor
    · have : (1 - t) * u + t * v ≤ 1 := by nlinarith
      linarith [h1.1]
    · have : 0 ≤ (1 - t) * u + t * v := by nlinarith
      linarith [h1.2]
  · rintro ⟨ha, hb⟩
    have huv : u ≤ v := by
      rw [hu, hv]; unfold uniformCdf
      exact max_le_max le_rfl (min_le_min le_rfl (by simp; linarith))
    have hau : a ≤ r.er - 0.5 + u := by
      rw [hu]; unfold uniformCdf
      have : (a - (r.er - 0.5)) / 1 = a - (r.er - 0.5) := by simp
      rw [this]
      have := le_max_right (0:ℝ) (min 1 (a - (r.er - 0.5)))
      rw [min_eq_right (by linarith)] at this ⊢
      linarith
    have hvb : r.er - 0.5 + v ≤ b := by
      rw [hv]; unfold uniformCdf
      have : (b - (r.er - 0.5)) / 1 = b - (r.er - 0.5) := by simp
      rw [this]
      have : max 0 (min 1 (b - (r.er - 0.5))) ≤ b - (r.er - 0.5) := max_le (by linarith) (min_le_right _ _)
      linarith
    have hpt : ∀ i : ℕ, i < m + 1 → r.er - 0.5 + u ≤ r.er - 0.5 + (u + (i + 1) * ((v - u) / (((m + 1 : ℕ) : ℝ) + 1))) ∧
        r.er - 0.5 + (u + (i + 1) * ((v - u) / (((m + 1 : ℕ) : ℝ) + 1))) ≤ r.er - 0.5 + v := by
      intro i hi
      have := linspace_mem huv (m + 1) (show i + 1 < m + 1 + 2 by omega)
      rw [Nat.cast_add i 1, Nat.cast_one] at this
      exact ⟨by linarith, by linarith⟩
    refine ⟨?_, ?_⟩
    · rw [List.cons_append, List.pairwise_cons, List.pairwise_append, List.pairwise_map]
      refine ⟨?_, ?_, by simp, ?_⟩
      · intro x hx
        simp only [List.mem_append, List.mem_map, List.mem_range, List.mem_singleton] at hx
        rcases hx with ⟨i, hi, rfl⟩ | rfl
        · linarith [(hpt i hi).1]
        · exact hab.le
      · refine List.pairwise_lt_range.imp ?_
        intro i j hij
        have h0 : 0 ≤ (v - u) / (((m + 1 : ℕ) : ℝ) + 1) := div_nonneg (by linarith) hm.le
        have : (i : ℝ) + 1 ≤ j + 1 := by
          have : (i : ℝ) ≤ j := by exact_mod_cast hij.le
          linarith
        have := mul_le_mul_of_nonneg_right this h0
        linarith
      · intro x hx y hy
        simp only [List.mem_map, List.mem_range, List.mem_singleton] at hx hy
        obtain ⟨i, hi, rfl⟩ := hx
        subst hy
        linarith [(hpt i hi).2]
    · intro x hx
      simp only [List.cons_append, List.mem_cons, List.mem_append, List.mem_map, List.mem_range,
        List.not_mem_nil, or_false] at hx
      rcases hx with rfl | ⟨i, hi, rfl⟩ | rfl
      · exact ⟨le_rfl, hab.le⟩
      · have := hpt i hi
        exact ⟨by linarith, by linarith⟩
      · exact ⟨hab.le, le_rfl⟩

/-- C13 is false of the code: for limits below the box the grid leaves the limits. -/
theorem C13_refuted : ¬ ∀ (k : PhysConst) (init inter : Level) (final : Option Level) (R : ℝ → ℝ) (r : Reso),
    mkResonance k init inter final R = .ok r → ∀ a b : ℝ, a < b → ∀ n : ℤ, 2 ≤ n →
    ∀ g : List ℝ, r.probGrid (.lims a b) n = .ok (some (g.map .fin)) → OrderedInside a b g := by
  intro hall
  obtain ⟨r, hr, he⟩ := exResonance
  obtain ⟨g, hg, -, hiff⟩ := C13_box_iff hr (a := 0) (b := 1) (by norm_num) 3 le_rfl
  have := hiff.1 (hall _ _ _ _ _ r hr 0 1 (by norm_num) 3 (by norm_num) g hg)
  rw [he] at this
  norm_num at this

/-- C13, the part that holds: Breit-Wigner and Gauss grids are always ordered and inside the limits.
Missing: the box shape (see `C13_box_iff`) and the pseudo-Voigt shapes. -/
theorem C13_partial {r : Reso} (h : IsBreitWigner r ∨ IsGauss r) {a b : ℝ} (hab : a < b) (n : ℤ) (hn : 2 ≤ n) :
    ∃ g : List ℝ, r.probGrid (.lims a b) n = .ok (some (g.map .fin)) ∧ OrderedInside a b g := by
  obtain ⟨F, p, Q, hA⟩ : ∃ F p Q, Analytic r F p Q := h.elim (·.analytic) (·.analytic)
  obtain ⟨m, rfl⟩ : ∃ m : ℕ, n = (m : ℤ) + 2 := ⟨(n - 2).toNat, by omega⟩
  have hF := hA.good.strictMono hab
  refine ⟨qgrid Q (F a) (F b) m, ?_, ?_, ?_⟩
  · unfold Reso.probGrid
    simp only [hA.cdf, List.map_cons, List.map_nil, bind, Except.bind, linspace_nat,
      hA.ppf_linspace (hA.good.gt_zero a) (hA.good.lt_one b) hF.le]
    rw [setEnds_of_ends]
    · rfl
    · simp [qgrid_length]
    · simp [List.head?_map, qgrid_head, hA.Q_F]
    · simp [List.getLast?_map, qgrid_last, hA.Q_F]
  · exact (hA.qgrid_pairwise (hA.good.gt_zero a) (hA.good.lt_one b) hF m).imp le_of_lt
  · intro x hx
    simp only [qgrid, List.mem_map, List.mem_range] at hx
    obtain ⟨i, hi, rfl⟩ := hx
    have := linspace_mem hF.le m hi
    have h0 := hA.good.gt_zero a
    have h1 := hA.good.lt_one b
    constructor
    · rw [← hA.good.strictMono.le_iff_le, hA.inv _ (by linarith) (by linarith)]; linarith
    · rw [← hA.good.strictMono.le_iff_le, hA.inv _ (by linarith) (by linarith)]; linarith

/-- the hypotheses of C13 are met -/
example : ∃ r, IsBreitWigner r := by
  obtain ⟨r, h, -⟩ := exBreitWigner
  exact ⟨r, _, _, _, _, 4, h, exExcited_width, by norm_num⟩
example : ∃ r, IsGauss r := by
  obtain ⟨r, h, -⟩ := exGauss
  exact ⟨r, _, _, _, 11, 293, _, h, by norm_num, by norm_num, by norm_num [exGround, exExcited, groundState, state]⟩

/-! ## C14 -/

theorem probGrids_ok {rs : List Obj} {req : Req} {n : ℤ} {gs : List Fl} (h : Obj.probGrids rs req n = .ok gs) :
    (∀ o ∈ rs, ∃ g, o.probGrid req n = .ok g) ∧
    ∀ x, x ∈ gs ↔ ∃ o ∈ rs, ∃ g, o.probGrid req n = .ok g ∧ x ∈ g := by
  induction rs generalizing gs with
  | nil => simp [Obj.probGrids] at h; subst h; simp
  | cons o os ih =>
    unfold Obj.probGrids at h
    cases h1 : o.probGrid req n with
    | error e => simp [h1, bind, Except.bind] at h
    | ok g =>
      cases h2 : Obj.probGrids os req n with
      | error e => simp [h1, h2, bind, Except.bind] at h
      | ok gs' =>
        simp only [h1, h2, bind, Except.bind, Except.ok.injEq] at h
        subst h
        obtain ⟨ih1, ih2⟩ := ih h2
        refine ⟨?_, ?_⟩
        · intro o' ho'
          rcases List.mem_cons.1 ho' with rfl | ho'
          · exact ⟨g, h1⟩
          · exact ih1 o' ho'
        · intro x
          simp only [List.mem_append, ih2, List.mem_cons, exists_eq_or_imp, h1, Except.ok.injEq,
            exists_eq_left']

theorem probGrids_total {rs : List Obj} {req : Req} {n : ℤ} (h : ∀ o ∈ rs, ∃ g, o.probGrid req n = .ok g) :
    ∃ gs, Obj.probGrids rs req n = .ok gs := by
  induction rs with
  | nil => exact ⟨[], rfl⟩
  | cons o os ih =>
    obtain ⟨g, hg⟩ := h o (by simp)
    obtain ⟨gs, hgs⟩ := ih fun o' ho' => h o' (by simp [ho'])
    exact ⟨g ++ gs, by simp [Obj.probGrids, hg, hgs, bind, Except.bind]⟩

/-- C14: the grid of a weighted sum exists as soon as every constituent has a grid, is strictly
increasing, and consists of exactly the energies of the constituents' grids. -/
theorem C14_sum_grid (rs ss : List Obj) (req : Req) (n : ℤ) :
    ((∃ g, (Obj.wsum rs ss).probGrid req n = .ok g) ↔ ∀ o ∈ rs, ∃ g, o.probGrid req n = .ok g) ∧
    ∀ g, (Obj.wsum rs ss).probGrid req n = .ok g →
      g.Pairwise (· < ·) ∧ ∀ x, x ∈ g ↔ ∃ o ∈ rs, ∃ go, o.probGrid req n = .ok go ∧ x ∈ go := by
  have key : ∀ g, (Obj.wsum rs ss).probGrid req n = .ok g → ∃ gs, Obj.probGrids rs req n = .ok gs ∧ g = npUnique gs := by
    intro g h
    unfold Obj.probGrid at h
    cases h1 : Obj.probGrids rs req n with
    | error e => simp [h1, bind, Except.bind] at h
    | ok gs =>
      simp only [h1, bind, Except.bind, Except.ok.injEq] at h
      exact ⟨gs, rfl, h.symm⟩
  refine ⟨⟨?_, ?_⟩, ?_⟩
  · rintro ⟨g, hg⟩
    obtain ⟨gs, hgs, -⟩ := key g hg
    exact (probGrids_ok hgs).1
  · intro h
    obtain ⟨gs, hgs⟩ := probGrids_total h
    exact ⟨npUnique gs, by simp [Obj.probGrid, hgs, bind, Except.bind]⟩
  · intro g hg
    obtain ⟨gs, hgs, rfl⟩ := key g hg
    refine ⟨?_, ?_⟩
    · unfold npUnique
      have h1 := List.pairwise_insertionSort (· ≤ ·) gs.dedup
      have h2 : (gs.dedup.insertionSort (· ≤ ·)).Nodup :=
        ((List.perm_insertionSort (· ≤ ·) gs.dedup).nodup_iff).2 (List.nodup_dedup gs)
      exact (h1.and h2).imp fun h => lt_of_le_of_ne h.1 h.2
    · intro x
      rw [← (probGrids_ok hgs).2 x]
      unfold npUnique
      rw [(List.perm_insertionSort (· ≤ ·) gs.dedup).mem_iff, List.mem_dedup]

/-- The quantile function returns as many values as it is given. -/
def Dist.LengthPreserving (d : Dist) : Prop :=
  ∀ ps qs g, d.ppf ps qs = .ok (some g) → g.length = qs.length

theorem scipyDist_lengthPreserving (pdf cdf ppf : ℝ → ℝ → ℝ → ℝ) (lo hi : ℝ → ℝ → Fl) :
    (scipyDist pdf cdf ppf lo hi).LengthPreserving := by
  intro ps qs g h
  simp only [scipyDist, bind, Except.bind] at h
  cases hl : locScale ps with
  | error e => simp [hl] at h
  | ok ls =>
    simp only [hl, Except.ok.injEq, Option.some.injEq] at h
    rw [← h]; simp

/-- Whatever the distribution is (even one with rounding errors), a grid over explicit limits has `n` points, starts
exactly at the lower and ends exactly at the upper limit. -/
theorem C11_ends_exact {r : Reso} (hd : r.dist.LengthPreserving) {a b : ℝ} {n : ℤ} (hn : 2 ≤ n) {g : List Fl}
    (h : r.probGrid (.lims a b) n = .ok (some g)) :
    (g.length : ℤ) = n ∧ g.head? = some (.fin a) ∧ g.getLast? = some (.fin b) := by
  unfold Reso.probGrid at h
  simp only [bind, Except.bind] at h
  cases hc : r.dist.cdf r.params [a, b] with
  | error e => simp [hc] at h
  | ok lim =>
    simp only [hc] at h
    match lim with
    | [] => simp at h
    | [_] => simp at h
    | _ :: _ :: _ :: _ => simp at h
    | [l0, l1] =>
      simp only at h
      cases hq : linspace l0 l1 n with
      | error e => simp [hq] at h
      | ok qs =>
        simp only [hq] at h
        cases hp : r.dist.ppf r.params qs with
        | error e => simp [hp] at h
        | ok o =>
          cases o with
          | none => simp [hp] at h
          | some g0 =>
            simp only [hp] at h
            have hlen := hd _ _ _ hp
            have hql := linspace_length hq
            match g0 with
            | [] => simp at hlen; omega
            | [_] => simp at hlen; omega
            | x :: y :: g1 =>
              simp only [Reso.setEnds, Except.map, Except.ok.injEq, Option.some.injEq] at h
              subst h
              refine ⟨?_, by simp, ?_⟩
              · simp at hlen ⊢; omega
              · rw [← List.cons_append, List.getLast?_append]; simp

/-- Objects whose grid over explicit limits contains the limits. -/
def Reaches (o : Obj) : Prop :=
  (∃ c, o = .const c) ∨ (∃ l : Leaf, l.grid = constGrid ∧ o = .leaf l) ∨
    ∃ r : Reso, r.dist.LengthPreserving ∧ o = .leaf r.toLeaf

/-- C14: with explicit limits and `n ≥ 2` the grid of a sum contains both limits, as soon as one
constituent is a constant, a nonresonant process or a resonance. -/
theorem C14_sum_grid_limits (rs ss : List Obj) (a b : ℝ) (n : ℤ) (hn : 2 ≤ n) (hr : ∃ o ∈ rs, Reaches o)
    (g : List Fl) (h : (Obj.wsum rs ss).probGrid (.lims a b) n = .ok g) : .fin a ∈ g ∧ .fin b ∈ g := by
  obtain ⟨hex, hall⟩ := C14_sum_grid rs ss (.lims a b) n
  obtain ⟨-, hmem⟩ := hall g h
  obtain ⟨o, ho, hreach⟩ := hr
  obtain ⟨go, hgo⟩ := hex.1 ⟨g, h⟩ o ho
  have lin : ∀ go, linspace (.fin a) (.fin b) n = .ok go → Fl.fin a ∈ go ∧ Fl.fin b ∈ go := by
    intro go hgo
    obtain ⟨g', hg', -, h1, h2, -⟩ := C10_energy_grid a b n hn
    simp only [energyGrid, hgo, Except.ok.injEq] at hg'
    subst hg'
    exact ⟨List.mem_map_of_mem (List.mem_of_head? h1), List.mem_map_of_mem (List.mem_of_getLast? h2)⟩
  have : Fl.fin a ∈ go ∧ Fl.fin b ∈ go := by
    rcases hreach with ⟨c, rfl⟩ | ⟨l, hl, rfl⟩ | ⟨r, hr, rfl⟩
    · exact lin go hgo
    · simp only [Obj.probGrid, hl] at hgo
      exact lin go hgo
    · simp only [Obj.probGrid, Reso.toLeaf, bind, Except.bind] at hgo
      cases hg : r.probGrid (.lims a b) n with
      | error e => simp [hg] at hgo
      | ok o =>
        cases o with
        | none => simp [hg] at hgo
        | some g1 =>
          simp only [hg, Except.ok.injEq] at hgo
          subst hgo
          obtain ⟨-, h1, h2⟩ := C11_ends_exact hr hn hg
          exact ⟨List.mem_of_head? h1, List.mem_of_getLast? h2⟩
  exact ⟨(hmem _).2 ⟨o, ho, go, hgo, this.1⟩, (hmem _).2 ⟨o, ho, go, hgo, this.2⟩⟩

/-- a Breit-Wigner resonance on a constant background has such a grid -/
example : ∃ (r : Reso) (g : List Fl), (Obj.wsum [.leaf r.toLeaf, .const 1] [.num 1, .num 1]).probGrid (.lims 0 3) 5 = .ok g ∧
    Fl.fin 0 ∈ g ∧ Fl.fin 3 ∈ g := by
  obtain ⟨r, h, -⟩ := exBreitWigner
  have hbw : IsBreitWigner r := ⟨_, _, _, _, 4, h, exExcited_width, by norm_num⟩
  obtain ⟨g0, hg0, -⟩ := C13_partial (Or.inl hbw) (a := 0) (b := 3) (by norm_num) 5 (by norm_num)
  obtain ⟨g1, hg1, -⟩ := C10_energy_grid 0 3 5 (by norm_num)
  have hall : ∀ o ∈ [Obj.leaf r.toLeaf, .const 1], ∃ g, o.probGrid (.lims 0 3) 5 = .ok g := by
    intro o ho
    simp only [List.mem_cons, List.not_mem_nil, or_false] at ho
    rcases ho with rfl | rfl
    · exact ⟨_, by simp [Obj.probGrid, Reso.toLeaf, hg0, bind, Except.bind]; rfl⟩
    · exact ⟨_, hg1⟩
  obtain ⟨g, hg⟩ := (C14_sum_grid [Obj.leaf r.toLeaf, .const 1] [.num 1, .num 1] (.lims 0 3) 5).1.2 hall
  exact ⟨r, g, hg, C14_sum_grid_limits _ _ 0 3 5 (by norm_num) ⟨.const 1, by simp, Or.inl ⟨1, rfl⟩⟩ g hg⟩

/-! ## C15 -/

/-- C15 is false of the code: any sum that contains a constant or a nonresonant process rejects a coverage,
although all its resonances accept it. -/
theorem C15_refuted (rs ss : List Obj) (c : ℝ) (n : ℤ)
    (h : ∃ o ∈ rs, (∃ x, o = Obj.const x) ∨ ∃ l : Leaf, l.grid = constGrid ∧ o = .leaf l) (g : List Fl) :
    (Obj.wsum rs ss).probGrid (.cov c) n ≠ .ok g := by
  intro hg
  obtain ⟨o, ho, hc⟩ := h
  obtain ⟨go, hgo⟩ := (C14_sum_grid rs ss (.cov c) n).1.1 ⟨g, hg⟩ o ho
  rcases hc with ⟨x, rfl⟩ | ⟨l, hl, rfl⟩
  · simp [Obj.probGrid, constGrid] at hgo
  · simp [Obj.probGrid, hl, constGrid] at hgo

/-- the error in the simplest case is a TypeError -/
theorem C15_typeError (x c : ℝ) (ss : List Obj) (n : ℤ) :
    (Obj.wsum [.const x] ss).probGrid (.cov c) n = .error .typeError := by
  simp [Obj.probGrid, Obj.probGrids, constGrid, bind, Except.bind]

/-- The hypothesis is met: a constant beside a resonance. -/
example (r : Reso) : ∃ o ∈ [Obj.leaf r.toLeaf, .const 2], (∃ x, o = Obj.const x) ∨ ∃ l : Leaf, l.grid = constGrid ∧ o = .leaf l :=
  ⟨.const 2, by simp, .inl ⟨2, rfl⟩⟩

/-- C15, the part that holds: a sum of Breit-Wigner and Gauss resonances accepts every coverage in (0,1).
Missing: sums with constant or nonresonant constituents, for which it is false (`C15_refuted`). -/
theorem C15_partial (rs : List Reso) (ss : List Obj) (h : ∀ r ∈ rs, IsBreitWigner r ∨ IsGauss r)
    (c : ℝ) (h0 : 0 < c) (h1 : c < 1) (n : ℤ) (hn : 2 ≤ n) :
    ∃ g, (Obj.wsum (rs.map fun r => .leaf r.toLeaf) ss).probGrid (.cov c) n = .ok g := by
  rw [(C14_sum_grid _ ss (.cov c) n).1]
  intro o ho
  obtain ⟨r, hr, rfl⟩ := List.mem_map.1 ho
  obtain ⟨F, p, Q, hA⟩ : ∃ F p Q, Analytic r F p Q := (h r hr).elim (·.analytic) (·.analytic)
  obtain ⟨m, rfl⟩ : ∃ m : ℕ, n = (m : ℤ) + 2 := ⟨(n - 2).toNat, by omega⟩
  have e := hA.ppf_linspace (a := 0.5 * (1 - c)) (b := 0.5 * (1 + c)) (by linarith) (by linarith) (by linarith) m
  refine ⟨(qgrid Q (0.5 * (1 - c)) (0.5 * (1 + c)) m).map .fin, ?_⟩
  simp only [Obj.probGrid, Reso.toLeaf, Reso.probGrid, bind, Except.bind, linspace_nat, e]

/-- The hypotheses are met: a sum of a Breit-Wigner and a Gauss resonance. -/
example : ∃ rs : List Reso, rs.length = 2 ∧ ∀ r ∈ rs, IsBreitWigner r ∨ IsGauss r := by
  obtain ⟨r, h, -⟩ := exBreitWigner
  obtain ⟨s, h', -⟩ := exGauss
  have h1 : IsBreitWigner r := ⟨_, _, _, _, 4, h, exExcited_width, by norm_num⟩
  have h2 : IsGauss s := ⟨_, _, _, 11, 293, _, h', by norm_num, by norm_num, by norm_num [exGround, exExcited, groundState, state]⟩
  exact ⟨[r, s], rfl, by simp [h1, h2]⟩

end Ries
