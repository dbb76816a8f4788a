import Verif.Model.MonteCarlo
import Verif.Props.SelfAbsorption

/-! # C138, C139, C140: Monte Carlo loop of the 6Li notebook -/

namespace Ries

/-! ## Simplex search -/

namespace Simplex

/-- values belong to their points, the best point comes first and is at least as good as `v` -/
def Good (f : ℝ → Except Err ℝ) (v : ℝ) (s : Simplex) : Prop :=
  f s.x0 = .ok s.f0 ∧ f s.x1 = .ok s.f1 ∧ s.f0 ≤ s.f1 ∧ s.f0 ≤ v

theorem sort_good {f : ℝ → Except Err ℝ} {v : ℝ} {s : Simplex} (h0 : f s.x0 = .ok s.f0) (h1 : f s.x1 = .ok s.f1) (hv : s.f0 ≤ v) :
    s.sort.Good f v := by
  unfold sort
  split_ifs with h
  · exact ⟨h1, h0, h.le, h.le.trans hv⟩
  · exact ⟨h0, h1, not_lt.1 h, hv⟩

theorem step_eq {f : ℝ → Except Err ℝ} {s t : Simplex} (h : step f s = .ok t) :
    t.x0 = s.x0 ∧ t.f0 = s.f0 ∧ f t.x1 = .ok t.f1 := by
  unfold step at h
  simp only [Bind.bind, Except.bind] at h
  repeat' split at h
  all_goals first
    | contradiction
    | (simp only [Except.ok.injEq] at h
       subst h
       exact ⟨rfl, rfl, by assumption⟩)

theorem loop_good {f : ℝ → Except Err ℝ} {tol v : ℝ} (n : ℕ) {s t : Simplex} (hs : s.Good f v) (h : loop f tol n s = .ok t) :
    t.Good f v := by
  induction n generalizing s with
  | zero => rw [loop] at h; cases h; exact hs
  | succ n ih =>
    rw [loop] at h
    split_ifs at h with h1 h2
    · cases h; exact hs
    · cases h; exact hs
    · simp only [Bind.bind, Except.bind] at h
      split at h
      · contradiction
      · rename_i u hu
        obtain ⟨e0, e1, e2⟩ := step_eq hu
        exact ih (sort_good (by rw [e0, e1]; exact hs.1) e2 (by rw [e1]; exact hs.2.2.2)) h

end Simplex

/-- C139, the part that holds of every function: if the search returns a point, then the function has a value there, and it is not larger
than at the start value and at the second point of the first simplex. -/
theorem C139_partial {f : ℝ → Except Err ℝ} {x tol y : ℝ} (hx : x ≠ 0) (h : nelderMead f x tol = .ok y) :
    ∃ a b v, f x = .ok a ∧ f (1.05 * x) = .ok b ∧ f y = .ok v ∧ v ≤ a ∧ v ≤ b := by
  simp only [nelderMead, Simplex.start, if_neg hx, Bind.bind, Except.bind] at h
  rw [show (1 + 0.05 : ℝ) = 1.05 by norm_num] at h
  cases ha : f x with
  | error e => simp [ha] at h
  | ok a =>
    cases hb : f (1.05 * x) with
    | error e => simp [ha, hb] at h
    | ok b =>
      simp only [ha, hb] at h
      split at h
      · contradiction
      · rename_i t ht
        cases h
        have hg : (Simplex.sort ⟨x, a, 1.05 * x, b, 2⟩).Good f (min a b) := by
          have := Simplex.sort_good (s := ⟨x, a, 1.05 * x, b, 2⟩) ha hb (le_refl a)
          refine ⟨this.1, this.2.1, this.2.2.1, ?_⟩
          unfold Simplex.sort
          dsimp only
          split_ifs with hlt
          · exact le_min hlt.le le_rfl
          · exact le_min le_rfl (not_lt.1 hlt)
        have := Simplex.loop_good 199 hg ht
        exact ⟨a, b, t.f0, rfl, rfl, this.1, this.2.2.2.trans (min_le_left _ _), this.2.2.2.trans (min_le_right _ _)⟩

/-- C139: the search ends with the better one of the first two points if the values there differ by at most the tolerance and the
points are as close; how far both are from the minimum does not matter. -/
theorem C139_stops {f : ℝ → Except Err ℝ} {x tol a b : ℝ} (hx : x ≠ 0) (ha : f x = .ok a) (hb : f (1.05 * x) = .ok b)
    (ht : 0.05 * |x| ≤ tol) (hab : |a - b| ≤ tol) : nelderMead f x tol = .ok (if b < a then 1.05 * x else x) := by
  have hxx : |1.05 * x - x| ≤ tol := by
    rw [show 1.05 * x - x = 0.05 * x by ring, abs_mul, abs_of_pos (by norm_num : (0 : ℝ) < 0.05)]
    exact ht
  simp only [nelderMead, Simplex.start, if_neg hx, Bind.bind, Except.bind]
  rw [show (1 + 0.05 : ℝ) = 1.05 by norm_num]
  simp only [ha, hb]
  have hl : Simplex.loop f tol 199 (Simplex.sort ⟨x, a, 1.05 * x, b, 2⟩) = .ok (Simplex.sort ⟨x, a, 1.05 * x, b, 2⟩) := by
    rw [Simplex.loop, if_neg, if_pos]
    · unfold Simplex.sort Simplex.Small
      dsimp only
      split_ifs
      · exact ⟨by rw [abs_sub_comm]; exact hxx, by rw [abs_sub_comm]; exact hab⟩
      · exact ⟨hxx, hab⟩
    · unfold Simplex.sort
      split_ifs <;> norm_num
  rw [hl]
  unfold Simplex.sort
  dsimp only
  split_ifs <;> rfl

/-- the function that is minimized in the notebook, for a self absorption `R` and a measured value `r` -/
noncomputable def misfit (R : ℝ → ℝ) (r : ℝ) (Γ : ℝ) : Except Err ℝ := .ok |R Γ - r|

/-- The search with the start value and the tolerance of the notebook stops at once for a measured value in the middle between the first
two values of the self absorption, whatever the self absorption is: the distance to the measured value is half of their difference. -/
theorem C139_midpoint (R : ℝ → ℝ) : nelderMead (misfit R ((R 8.17e-6 + R (1.05 * 8.17e-6)) / 2)) 8.17e-6 (0.1 * rExpTolerance) = .ok 8.17e-6 := by
  have key : |R 8.17e-6 - (R 8.17e-6 + R (1.05 * 8.17e-6)) / 2| = |R (1.05 * 8.17e-6) - (R 8.17e-6 + R (1.05 * 8.17e-6)) / 2| := by
    rw [← abs_neg]; congr 1; ring
  have h := C139_stops (f := misfit R ((R 8.17e-6 + R (1.05 * 8.17e-6)) / 2)) (x := 8.17e-6) (tol := 0.1 * rExpTolerance) (by norm_num) rfl rfl
    (by rw [abs_of_pos (by norm_num)]; norm_num [rExpTolerance]) (by rw [key]; norm_num [rExpTolerance])
  rw [h, if_neg (by rw [key]; exact lt_irrefl _)]

/-- C139 is false of the code: the self absorption increases strictly and continuously (0.1 per 8.17 eV) and takes the measured value near
the start value, but the width that is found misses it by 25 times the tolerance. -/
theorem C139_refuted : ∃ R : ℝ → ℝ, StrictMono R ∧ Continuous R ∧ ∃ r Γ, 8.17e-6 < Γ ∧ Γ < 1.05 * 8.17e-6 ∧ R Γ = r ∧
    ∃ y, nelderMead (misfit R r) 8.17e-6 (0.1 * rExpTolerance) = .ok y ∧ 25 * rExpTolerance ≤ |R y - r| := by
  refine ⟨fun Γ => Γ / 8.17e-5, fun a b h => by simp only; gcongr, by fun_prop,
    (8.17e-6 / 8.17e-5 + (1.05 * 8.17e-6) / 8.17e-5) / 2, 1.025 * 8.17e-6, by norm_num, by norm_num, by norm_num, 8.17e-6,
    C139_midpoint (fun Γ => Γ / 8.17e-5), ?_⟩
  rw [← abs_neg, abs_of_pos (by norm_num)]
  norm_num [rExpTolerance]

/-! ## Warnings -/

theorem listItem_append {l : List ℝ} {n : ℕ} (h : l.length = n) (v : ℝ) : listItem (l ++ [v]) n = .ok v := by
  subst h
  simp [listItem]

theorem mcProgress_lists (total n : ℕ) (s : MCState) : (mcProgress total n s).gammas = s.gammas ∧
    (mcProgress total n s).rExps = s.rExps ∧ (mcProgress total n s).warned = s.warned := by
  unfold mcProgress
  split_ifs <;> exact ⟨rfl, rfl, rfl⟩

/-- what one pass does, for lists as long as the number of passes before -/
theorem mcPass_eq {R : Draw → ℝ → Except Err ℝ} {total n : ℕ} {d : Draw} {s t : MCState} (hg : s.gammas.length = n)
    (hr : s.rExps.length = n) (h : mcPass R total n d s = .ok t) :
    ∃ g r, nelderMead (fun Γ => do let r ← R d Γ; .ok |r - d.rExp|) 8.17e-6 (0.1 * rExpTolerance) = .ok g ∧ R d g = .ok r ∧
      t.gammas = s.gammas ++ [g] ∧ t.rExps = s.rExps ++ [d.rExp] ∧
      t.current = (mcProgress total n s).current ∧ t.printed = (mcProgress total n s).printed ∧
      (isClose r d.rExp rExpTolerance ∧ t.warned = s.warned ∨
        ¬ isClose r d.rExp rExpTolerance ∧ t.warned = s.warned ++ [(d.rExp, g, r)]) := by
  obtain ⟨e1, e2, e3⟩ := mcProgress_lists total n s
  unfold mcPass at h
  simp only [e1, e2, e3, listItem_append hr, Bind.bind, Except.bind] at h
  split at h
  · contradiction
  rename_i g hgam
  simp only [listItem_append hg] at h
  split at h
  · contradiction
  rename_i r hrr
  split_ifs at h with hc
  · cases h
    exact ⟨g, r, hgam, hrr, rfl, rfl, rfl, rfl, Or.inl ⟨hc, rfl⟩⟩
  · cases h
    exact ⟨g, r, hgam, hrr, rfl, rfl, rfl, rfl, Or.inr ⟨hc, rfl⟩⟩

/-- What the outcome of `n` samples should look like: `value i` and `measured i` are the entries of the two lists. -/
structure Reported (R : Draw → ℝ → Except Err ℝ) (draws : ℕ → Draw) (tol : ℝ → ℝ) (n : ℕ) (s : MCState) : Prop where
  gammas : s.gammas.length = n
  rExps : s.rExps.length = n
  /-- every sample is stored, and reported if the self absorption misses the measured value by more than the tolerance -/
  sample : ∀ i < n, ∃ g r, s.gammas[i]? = some g ∧ s.rExps[i]? = some (draws i).rExp ∧ R (draws i) g = .ok r ∧
    (tol (draws i).rExp < |r - (draws i).rExp| → ((draws i).rExp, g, r) ∈ s.warned)
  /-- every warning belongs to a sample that misses the measured value by more than the tolerance -/
  warning : ∀ w ∈ s.warned, ∃ i < n, s.gammas[i]? = some w.2.1 ∧ w.1 = (draws i).rExp ∧ R (draws i) w.2.1 = .ok w.2.2 ∧
    tol w.1 < |w.2.2 - w.1|

/-- C138, what holds: for every function `R`, every sequence of random numbers and every number of samples, the samples with a warning are
exactly those that miss the measured value `r` by more than `10⁻⁴ + 10⁻⁵ |r|`; and no sample is worse than the start value. -/
theorem C138_partial {R : Draw → ℝ → Except Err ℝ} {draws : ℕ → Draw} {total : ℕ} {s : MCState} (h : monteCarlo R draws total = .ok s) :
    Reported R draws (fun r => 1e-4 + 1e-5 * |r|) total s ∧
      ∀ i < total, ∃ g r r₀, s.gammas[i]? = some g ∧ R (draws i) g = .ok r ∧ R (draws i) 8.17e-6 = .ok r₀ ∧
        |r - (draws i).rExp| ≤ |r₀ - (draws i).rExp| := by
  unfold monteCarlo at h
  suffices H : ∀ n s, mcPasses R draws total n = .ok s → Reported R draws (fun r => 1e-4 + 1e-5 * |r|) n s ∧
      ∀ i < n, ∃ g r r₀, s.gammas[i]? = some g ∧ R (draws i) g = .ok r ∧ R (draws i) 8.17e-6 = .ok r₀ ∧
        |r - (draws i).rExp| ≤ |r₀ - (draws i).rExp| from H total s h
  clear h s
  intro n
  induction n with
  | zero =>
    intro s h
    rw [mcPasses] at h
    cases h
    exact ⟨⟨rfl, rfl, fun i hi => absurd hi (by omega), fun w hw => by simp at hw⟩, fun i hi => absurd hi (by omega)⟩
  | succ n ih =>
    intro t h
    rw [mcPasses] at h
    simp only [Bind.bind, Except.bind] at h
    split at h
    · contradiction
    rename_i s hs
    obtain ⟨hrep, hbest⟩ := ih s hs
    obtain ⟨g, r, hgam, hr, e1, e2, -, -, hw⟩ := mcPass_eq hrep.gammas hrep.rExps h
    have hold : ∀ i < n, t.gammas[i]? = s.gammas[i]? ∧ t.rExps[i]? = s.rExps[i]? := fun i hi => by
      rw [e1, e2, List.getElem?_append_left (by rw [hrep.gammas]; exact hi), List.getElem?_append_left (by rw [hrep.rExps]; exact hi)]
      exact ⟨rfl, rfl⟩
    have hnew : t.gammas[n]? = some g ∧ t.rExps[n]? = some (draws n).rExp := by
      rw [e1, e2]
      constructor
      · rw [List.getElem?_append_right (by rw [hrep.gammas]), hrep.gammas]; simp
      · rw [List.getElem?_append_right (by rw [hrep.rExps]), hrep.rExps]; simp
    have hsub : ∀ w ∈ s.warned, w ∈ t.warned := by
      intro w hmem
      rcases hw with ⟨-, e⟩ | ⟨-, e⟩ <;> rw [e]
      · exact hmem
      · exact List.mem_append_left _ hmem
    refine ⟨⟨by rw [e1]; simp [hrep.gammas], by rw [e2]; simp [hrep.rExps], fun i hi => ?_, fun w hmem => ?_⟩, fun i hi => ?_⟩
    · rcases Nat.lt_succ_iff_lt_or_eq.1 hi with hi | rfl
      · obtain ⟨g', r', p1, p2, p3, p4⟩ := hrep.sample i hi
        obtain ⟨q1, q2⟩ := hold i hi
        exact ⟨g', r', q1.trans p1, q2.trans p2, p3, fun hlt => hsub _ (p4 hlt)⟩
      · refine ⟨g, r, hnew.1, hnew.2, hr, fun hlt => ?_⟩
        rcases hw with ⟨hc, -⟩ | ⟨-, e⟩
        · exact absurd hc (not_le.2 hlt)
        · rw [e]; exact List.mem_append_right _ (List.mem_singleton.2 rfl)
    · have hcase : w ∈ s.warned ∨ ¬ isClose r (draws n).rExp rExpTolerance ∧ w = ((draws n).rExp, g, r) := by
        rcases hw with ⟨-, e⟩ | ⟨hc, e⟩ <;> rw [e] at hmem
        · exact Or.inl hmem
        · rcases List.mem_append.1 hmem with hmem | hmem
          · exact Or.inl hmem
          · exact Or.inr ⟨hc, List.mem_singleton.1 hmem⟩
      rcases hcase with hmem | ⟨hc, rfl⟩
      · obtain ⟨i, hi, p1, p2⟩ := hrep.warning w hmem
        exact ⟨i, hi.trans (Nat.lt_succ_self n), (hold i hi).1.trans p1, p2⟩
      · exact ⟨n, Nat.lt_succ_self n, hnew.1, rfl, hr, not_le.1 hc⟩
    · rcases Nat.lt_succ_iff_lt_or_eq.1 hi with hi | rfl
      · obtain ⟨g', r', r₀, p1, p2⟩ := hbest i hi
        exact ⟨g', r', r₀, (hold i hi).1.trans p1, p2⟩
      · obtain ⟨a, b, v, ha, -, hv, hle, -⟩ := C139_partial (by norm_num) hgam
        simp only [Bind.bind, Except.bind, hr, Except.ok.injEq] at hv
        cases h0 : R (draws i) 8.17e-6 with
        | error e => rw [h0] at ha; simp [Bind.bind, Except.bind] at ha
        | ok r₀ =>
          rw [h0] at ha
          simp only [Bind.bind, Except.bind, Except.ok.injEq] at ha
          exact ⟨g, r, r₀, hnew.1, hr, rfl, by rw [hv, ha]; exact hle⟩

/-- without an absorber the function `R` of the notebook is 0 -/
theorem drawR_noAbsorber (k : PhysConst) {D : Li6Data} (hD : D.Ok) {mS d x : ℝ} (hS : 0 < mS) (hd : 0 < d) (hx : 0 < x) (rE : ℝ) :
    ∀ Γ : ℝ, 8.17e-6 ≤ Γ → drawR k D ⟨0, mS, d, x, rE⟩ Γ = .ok 0 := by
  intro Γ hΓ
  have h0 : (0 : ℝ) < Γ := lt_of_lt_of_le (by norm_num) hΓ
  obtain ⟨R, h1, h2⟩ := C105_li6 k hD (T := 411) (cov := 0.999) h0 hd hx (by norm_num) (by norm_num) (by norm_num)
    (lt_of_lt_of_le (by norm_num : (3.8e-8 : ℝ) < 0.999 * 8.17e-6)
      (mul_le_mul_of_nonneg_left (hΓ.trans (le_max_left _ _)) (by norm_num)))
  rw [drawR, h1 0 mS hS, (h2 mS hS).1]

/-- a pass in which the first two values of the self absorption are equal finds the start value -/
theorem mcPass_const {R : Draw → ℝ → Except Err ℝ} {d : Draw} {c : ℝ} (h0 : R d 8.17e-6 = .ok c) (h1 : R d (1.05 * 8.17e-6) = .ok c)
    (total n : ℕ) {s : MCState} (hg : s.gammas.length = n) (hr : s.rExps.length = n) : ∃ t, mcPass R total n d s = .ok t ∧
      t.gammas = s.gammas ++ [8.17e-6] ∧ (isClose c d.rExp rExpTolerance → t.warned = s.warned) ∧
      (¬ isClose c d.rExp rExpTolerance → t.warned = s.warned ++ [(d.rExp, 8.17e-6, c)]) := by
  obtain ⟨e1, e2, e3⟩ := mcProgress_lists total n s
  have hs : nelderMead (fun Γ => do let r ← R d Γ; .ok |r - d.rExp|) 8.17e-6 (0.1 * rExpTolerance) = .ok 8.17e-6 := by
    rw [C139_stops (a := |c - d.rExp|) (b := |c - d.rExp|) (by norm_num) (by rw [h0]; rfl) (by rw [h1]; rfl)
      (by rw [abs_of_pos (by norm_num)]; norm_num [rExpTolerance]) (by norm_num [rExpTolerance]), if_neg (lt_irrefl _)]
  unfold mcPass
  simp only [e1, e2, e3, listItem_append hr, Bind.bind, Except.bind]
  simp only [Bind.bind, Except.bind] at hs
  rw [hs]
  simp only [listItem_append hg, h0]
  by_cases hc : isClose c d.rExp rExpTolerance
  · exact ⟨_, if_pos hc, rfl, fun _ => rfl, fun h => absurd hc h⟩
  · exact ⟨_, if_neg hc, rfl, fun h => absurd h hc, fun _ => rfl⟩

/-- C138 is false of the code: the notebook says that a warning is printed if the absolute tolerance is not achieved, but `np.isclose` adds a
relative tolerance. The witness uses the function `R` of the notebook, without an absorber. -/
theorem C138_refuted (k : PhysConst) {D : Li6Data} (hD : D.Ok) : ∃ draws s, monteCarlo (drawR k D) draws 1 = .ok s ∧
    ¬ Reported (drawR k D) draws (fun _ => rExpTolerance) 1 s := by
  have h1 := drawR_noAbsorber k hD (mS := 5.033e-3) (d := 0.019) (x := 0.95) (by norm_num) (by norm_num) (by norm_num) 1.000005e-4
  obtain ⟨t, ht, hg, hw, -⟩ := mcPass_const (h1 _ le_rfl) (h1 _ (by norm_num)) 1 0 (s := ⟨0, [], [], [], []⟩) rfl rfl
  refine ⟨fun _ => ⟨0, 5.033e-3, 0.019, 0.95, 1.000005e-4⟩, t, ht, fun hrep => ?_⟩
  obtain ⟨g, r, p1, -, p3, p4⟩ := hrep.sample 0 (by norm_num)
  rw [hg] at p1
  simp only [List.nil_append, List.getElem?_cons_zero, Option.some.injEq] at p1
  rw [← p1, h1 _ le_rfl] at p3
  cases p3
  have hc : isClose 0 1.000005e-4 rExpTolerance := by
    unfold isClose
    rw [zero_sub, abs_neg, abs_of_pos (by norm_num)]
    norm_num [rExpTolerance]
  rw [hw hc] at p4
  have := p4 (by rw [zero_sub, abs_neg, abs_of_pos (by norm_num)]; norm_num [rExpTolerance])
  simp at this

theorem exLi6_ok : exLi6.Ok := ⟨by norm_num [exLi6], by norm_num [exLi6], by norm_num [exLi6], by norm_num [exLi6], by norm_num [exLi6],
  by norm_num [exLi6], by norm_num [exLi6]⟩

/-- with a measured value of 1/2 the run without an absorber ends with a warning -/
example : ∃ s, monteCarlo (drawR exConst exLi6) (fun _ => ⟨0, 5.033e-3, 0.019, 0.95, 0.5⟩) 1 = .ok s ∧
    s.warned = [(0.5, 8.17e-6, 0)] := by
  have h1 := drawR_noAbsorber exConst exLi6_ok (mS := 5.033e-3) (d := 0.019) (x := 0.95) (by norm_num) (by norm_num) (by norm_num) 0.5
  obtain ⟨t, ht, -, -, hw⟩ := mcPass_const (h1 _ le_rfl) (h1 _ (by norm_num)) 1 0 (s := ⟨0, [], [], [], []⟩) rfl rfl
  refine ⟨t, ht, hw ?_⟩
  unfold isClose
  rw [zero_sub, abs_neg, abs_of_pos (by norm_num)]
  norm_num [rExpTolerance]

/-! ## Progress messages -/

/-- runs without an absorber end without an exception, for every number of samples -/
theorem noAbsorber_runs (k : PhysConst) {D : Li6Data} (hD : D.Ok) (total : ℕ) : ∀ n, ∃ s,
    mcPasses (drawR k D) (fun _ => ⟨0, 5.033e-3, 0.019, 0.95, 0.5⟩) total n = .ok s ∧ s.gammas.length = n ∧ s.rExps.length = n := by
  have h1 := drawR_noAbsorber k hD (mS := 5.033e-3) (d := 0.019) (x := 0.95) (by norm_num) (by norm_num) (by norm_num) 0.5
  intro n
  induction n with
  | zero => exact ⟨_, rfl, rfl, rfl⟩
  | succ n ih =>
    obtain ⟨s, hs, l1, l2⟩ := ih
    obtain ⟨t, ht, -⟩ := mcPass_const (h1 _ le_rfl) (h1 _ (by norm_num)) total n l1 l2
    obtain ⟨g, r, -, -, e1, e2, -⟩ := mcPass_eq l1 l2 ht
    refine ⟨t, ?_, by rw [e1]; simp [l1], by rw [e2]; simp [l2]⟩
    rw [mcPasses, hs]
    exact ht

/-- length and content of the messages in one pass -/
theorem mcPasses_succ {R : Draw → ℝ → Except Err ℝ} {draws : ℕ → Draw} {total n : ℕ} {t : MCState}
    (h : mcPasses R draws total (n + 1) = .ok t) : ∃ s, mcPasses R draws total n = .ok s ∧
      t.current = (mcProgress total n s).current ∧ t.printed = (mcProgress total n s).printed := by
  have hl : ∀ n s, mcPasses R draws total n = .ok s → s.gammas.length = n ∧ s.rExps.length = n := by
    intro n
    induction n with
    | zero => intro s h; rw [mcPasses] at h; cases h; exact ⟨rfl, rfl⟩
    | succ n ih =>
      intro s h
      rw [mcPasses] at h
      simp only [Bind.bind, Except.bind] at h
      split at h
      · contradiction
      rename_i u hu
      obtain ⟨l1, l2⟩ := ih u hu
      obtain ⟨g, r, -, -, e1, e2, -⟩ := mcPass_eq l1 l2 h
      rw [e1, e2]
      simp [l1, l2]
  rw [mcPasses] at h
  simp only [Bind.bind, Except.bind] at h
  split at h
  · contradiction
  rename_i u hu
  obtain ⟨l1, l2⟩ := hl n u hu
  obtain ⟨g, r, -, -, -, -, e1, e2, -⟩ := mcPass_eq l1 l2 h
  exact ⟨u, hu, e1, e2⟩

/-- the messages 1 %, 2 %, ... -/
noncomputable def percentages (m : ℕ) : List ℝ := List.map (fun i : ℕ => 0.01 * ((i : ℝ) + 1)) (List.range m)

theorem mcProgress_messages (total n : ℕ) {s : MCState} {m : ℕ} (h1 : s.current = 0.01 * m) (h2 : s.printed = percentages m) :
    ((n : ℝ) / total > 0.01 * m + 0.01 → (mcProgress total n s).current = 0.01 * (m + 1 : ℕ) ∧
      (mcProgress total n s).printed = percentages (m + 1)) ∧
    (¬ (n : ℝ) / total > 0.01 * m + 0.01 → (mcProgress total n s).current = 0.01 * m ∧
      (mcProgress total n s).printed = percentages m) := by
  unfold mcProgress updatePercentage
  rw [h1]
  constructor
  · intro h
    rw [if_pos h]
    have e : (0.01 : ℝ) * m + 0.01 = 0.01 * ((m : ℝ) + 1) := by ring
    refine ⟨by push_cast; exact e, ?_⟩
    dsimp only
    rw [h2, e, percentages, percentages, List.range_succ, List.map_append]
    rfl
  · intro h
    rw [if_neg h]
    exact ⟨h1, h2⟩

/-- C140, what holds for 100 samples or more: in every pass, after the message, the fraction processed before is at least the printed
one and at most one percent more; the messages are 1 %, 2 %, ... without gap or repetition. -/
theorem C140_partial {R : Draw → ℝ → Except Err ℝ} {draws : ℕ → Draw} {total : ℕ} (ht : 100 ≤ total) {n : ℕ} {s : MCState}
    (h : mcPasses R draws total (n + 1) = .ok s) :
    s.printed = List.map (fun i : ℕ => 0.01 * ((i : ℝ) + 1)) (List.range s.printed.length) ∧
      0.01 * s.printed.length ≤ (n : ℝ) / total ∧ (n : ℝ) / total ≤ 0.01 * s.printed.length + 0.01 := by
  have htot : (0 : ℝ) < total := by exact_mod_cast (by omega : 0 < total)
  have h100 : 1 / (total : ℝ) ≤ 0.01 := by
    rw [div_le_iff₀ htot]
    have : (100 : ℝ) ≤ total := by exact_mod_cast ht
    linarith
  suffices H : ∀ n s, mcPasses R draws total n = .ok s → ∃ m : ℕ, s.current = 0.01 * m ∧ s.printed = percentages m ∧
      0.01 * (m : ℝ) ≤ ((n - 1 : ℕ) : ℝ) / total ∧ ((n - 1 : ℕ) : ℝ) / total ≤ 0.01 * m + 0.01 by
    obtain ⟨m, -, e, h1, h2⟩ := H (n + 1) s h
    have hlen : s.printed.length = m := by rw [e, percentages]; simp
    rw [hlen]
    exact ⟨e, h1, h2⟩
  clear h s n
  intro n
  induction n with
  | zero =>
    intro s h
    rw [mcPasses] at h
    cases h
    exact ⟨0, by simp, rfl, by simp, by simp; norm_num⟩
  | succ n ih =>
    intro t h
    obtain ⟨s, hs, e1, e2⟩ := mcPasses_succ h
    obtain ⟨m, hc, hp, hlo, hhi⟩ := ih s hs
    obtain ⟨m1, m2⟩ := mcProgress_messages total n hc hp
    have hup : (n : ℝ) / total ≤ ((n - 1 : ℕ) : ℝ) / total + 1 / total := by
      rw [← add_div]
      have : (n : ℝ) ≤ ((n - 1 : ℕ) : ℝ) + 1 := by exact_mod_cast (by omega : n ≤ n - 1 + 1)
      gcongr
    have hdown : ((n - 1 : ℕ) : ℝ) / total ≤ (n : ℝ) / total := by
      have : ((n - 1 : ℕ) : ℝ) ≤ n := by exact_mod_cast Nat.sub_le n 1
      gcongr
    rw [Nat.add_sub_cancel]
    by_cases hq : (n : ℝ) / total > 0.01 * m + 0.01
    · refine ⟨m + 1, e1.trans (m1 hq).1, e2.trans (m1 hq).2, ?_, ?_⟩
      · push_cast; linarith
      · push_cast; linarith
    · exact ⟨m, e1.trans (m2 hq).1, e2.trans (m2 hq).2, by linarith, not_lt.1 hq⟩

/-- the number of samples in the notebook -/
example : ∃ s, mcPasses (drawR exConst exLi6) (fun _ => ⟨0, 5.033e-3, 0.019, 0.95, 0.5⟩) 1000 (999 + 1) = .ok s :=
  (noAbsorber_runs exConst exLi6_ok 1000 1000).imp fun _ h => h.1

/-- C140 for fewer than 100 samples: there is one message in every pass but the first, and in pass `n` it says `n` percent, although the
fraction processed is `n / total`. -/
theorem C140_few {R : Draw → ℝ → Except Err ℝ} {draws : ℕ → Draw} {total : ℕ} (h0 : 0 < total) (ht : total < 100) {n : ℕ} {s : MCState}
    (h : mcPasses R draws total (n + 1) = .ok s) : s.printed = List.map (fun i : ℕ => 0.01 * ((i : ℝ) + 1)) (List.range n) := by
  have htot : (0 : ℝ) < total := by exact_mod_cast h0
  have h100 : (total : ℝ) < 100 := by exact_mod_cast ht
  suffices H : ∀ n s, mcPasses R draws total n = .ok s → s.current = 0.01 * ((n - 1 : ℕ) : ℝ) ∧ s.printed = percentages (n - 1) from
    (H (n + 1) s h).2
  clear h s n
  intro n
  induction n with
  | zero =>
    intro s h
    rw [mcPasses] at h
    cases h
    exact ⟨by simp, rfl⟩
  | succ n ih =>
    intro t h
    obtain ⟨s, hs, e1, e2⟩ := mcPasses_succ h
    obtain ⟨hc, hp⟩ := ih s hs
    obtain ⟨m1, m2⟩ := mcProgress_messages total n hc hp
    rw [e1, e2, Nat.add_sub_cancel]
    rcases Nat.eq_zero_or_pos n with rfl | hn
    · exact m2 (by norm_num)
    · have e : n - 1 + 1 = n := by omega
      have e' : ((n - 1 : ℕ) : ℝ) = n - 1 := by rw [eq_sub_iff_add_eq]; exact_mod_cast e
      have hn' : (0 : ℝ) < n := by exact_mod_cast hn
      have := m1 (by
        rw [e', gt_iff_lt, lt_div_iff₀ htot]
        nlinarith)
      rwa [e] at this

/-- ten samples -/
example : ∃ s, mcPasses (drawR exConst exLi6) (fun _ => ⟨0, 5.033e-3, 0.019, 0.95, 0.5⟩) 10 (9 + 1) = .ok s :=
  (noAbsorber_runs exConst exLi6_ok 10 10).imp fun _ h => h.1

/-- C140 is false of the code: with ten samples, the last message says 9 percent when 90 percent have been processed. The function `R` is that
of the notebook, without an absorber. -/
theorem C140_refuted (k : PhysConst) {D : Li6Data} (hD : D.Ok) : ∃ draws s, monteCarlo (drawR k D) draws 10 = .ok s ∧
    s.printed.getLast? = some 0.09 ∧ s.printed.length = 9 ∧ ¬ ((9 : ℝ) / 10 ≤ 0.09 + updatePercentage) := by
  obtain ⟨s, hs, -⟩ := noAbsorber_runs k hD 10 10
  have hp := C140_few (by norm_num) (by norm_num) (n := 9) hs
  refine ⟨_, s, hs, ?_, by rw [hp]; simp, by norm_num [updatePercentage]⟩
  rw [hp]
  simp [List.range_succ]
  norm_num

/-- The hypothesis is met. -/
example : exLi6.Ok := exLi6_ok

end Ries
