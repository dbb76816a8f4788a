import Verif.Props.DarbouxUse

/-! # C164: Darboux sums and arithmetic -/

namespace Ries

open Obj

theorem dsum_add_le {g : ℝ → ℝ → ℝ} {f₁ f₂ f : ℝ → ℝ} (hg : ∀ a b, g (f₁ a) (f₁ b) + g (f₂ a) (f₂ b) ≤ g (f a) (f b)) (x : ℝ) (xs : List ℝ)
    (hx : (x :: xs).IsChain (· ≤ ·)) :
    dsum g x xs (f₁ x) (xs.map f₁) + dsum g x xs (f₂ x) (xs.map f₂) ≤ dsum g x xs (f x) (xs.map f) := by
  induction xs generalizing x with
  | nil => simp [dsum]
  | cons x' xs ih =>
    rw [List.isChain_cons_cons] at hx
    have h1 := ih x' hx.2
    have h2 := mul_le_mul_of_nonneg_right (hg x x') (sub_nonneg.2 hx.1)
    simp only [List.map_cons, dsum]
    linarith

theorem dsum_add_ge {g : ℝ → ℝ → ℝ} {f₁ f₂ f : ℝ → ℝ} (hg : ∀ a b, g (f a) (f b) ≤ g (f₁ a) (f₁ b) + g (f₂ a) (f₂ b)) (x : ℝ) (xs : List ℝ)
    (hx : (x :: xs).IsChain (· ≤ ·)) :
    dsum g x xs (f x) (xs.map f) ≤ dsum g x xs (f₁ x) (xs.map f₁) + dsum g x xs (f₂ x) (xs.map f₂) := by
  induction xs generalizing x with
  | nil => simp [dsum]
  | cons x' xs ih =>
    rw [List.isChain_cons_cons] at hx
    have h1 := ih x' hx.2
    have h2 := mul_le_mul_of_nonneg_right (hg x x') (sub_nonneg.2 hx.1)
    simp only [List.map_cons, dsum]
    linarith

/-- C164, adjacent intervals: an integral over a partition that is cut at one of its points is the sum of the two integrals, and on a
nondecreasing partition the gaps add up. -/
theorem C164_pieces (f : ℝ → ℝ) (s t : List ℝ) (b : ℝ) : ∃ L₁ D₁ L₂ D₂ D, darboux (vectorised f) (s ++ [b]) = .ok (L₁, D₁) ∧
    darboux (vectorised f) (b :: t) = .ok (L₂, D₂) ∧ darboux (vectorised f) (s ++ b :: t) = .ok (L₁ + L₂, D) ∧ D ≤ D₁ + D₂ ∧
    ((s ++ b :: t).IsChain (· ≤ ·) → D = D₁ + D₂) := by
  cases s with
  | nil =>
    refine ⟨_, _, _, _, |dsum max b t (f b) (t.map f) - dsum min b t (f b) (t.map f)|, darboux_fun f b [], darboux_fun f b t, ?_, ?_, ?_⟩
    · rw [List.nil_append, darboux_fun]
      simp [dsum]
    · simp [dsum]
    · intro; simp [dsum]
  | cons x s =>
    refine ⟨_, _, _, _, |dsum max x (s ++ [b]) (f x) ((s ++ [b]).map f) + dsum max b t (f b) (t.map f) -
      (dsum min x (s ++ [b]) (f x) ((s ++ [b]).map f) + dsum min b t (f b) (t.map f))|, darboux_fun f x (s ++ [b]), darboux_fun f b t, ?_, ?_, ?_⟩
    · rw [List.cons_append, darboux_fun, dsum_append min, dsum_append max]
    · refine le_trans (le_of_eq ?_) (abs_add_le _ _)
      congr 1; ring
    · intro hx
      have h1 : (x :: (s ++ [b])).IsChain (· ≤ ·) := by
        refine List.IsChain.left_of_append (l₂ := t) ?_
        simpa using hx
      have h2 : (b :: t).IsChain (· ≤ ·) := hx.right_of_append
      have e1 := sub_nonneg.2 (dsum_le (g := min) (h := max) (fun a b => min_le_max) x (f x) (s ++ [b]) ((s ++ [b]).map f) h1)
      have e2 := sub_nonneg.2 (dsum_le (g := min) (h := max) (fun a b => min_le_max) b (f b) t (t.map f) h2)
      rw [abs_of_nonneg e1, abs_of_nonneg e2, abs_of_nonneg (by linarith)]
      ring

/-- A partition cut at one of its points. -/
example : ([-1, 0] ++ 1 :: [2, 4] : List ℝ).IsChain (· ≤ ·) := by norm_num [List.isChain_cons_cons]

theorem varies_add {a b s : Obj} (h : add a b = .ok s) (hv : Varies a ∨ Varies b) : Varies s := by
  have hw : ∀ rs ss o, wsumAdd rs ss o = .ok s → (∃ r ∈ rs, Varies r) ∨ Varies o → Varies s := by
    intro rs ss o h hv
    simp only [wsumAdd, bind, Except.bind] at h
    split at h
    · cases h
    · split at h
      · cases h
        rcases hv with ⟨r, hr, hr'⟩ | hv
        · exact .wsum (List.mem_append_left _ hr) hr'
        · cases hv
      · cases h
        rcases hv with ⟨r, hr, hr'⟩ | hv
        · exact .wsum (List.mem_append_left _ hr) hr'
        · exact .wsum (List.mem_append_right _ (List.mem_singleton.2 rfl)) hv
      · cases h
        rcases hv with ⟨r, hr, hr'⟩ | hv
        · exact .wsum (List.mem_append_left _ hr) hr'
        · cases hv
      · split at h
        · cases h
        · cases h
          rcases hv with ⟨r, hr, hr'⟩ | hv
          · exact .wsum (List.mem_append_left _ hr) hr'
          · cases hv with
            | wsum hr hr' => exact .wsum (List.mem_append_right _ hr) hr'
  have hc : ∀ a o, csAdd a o = s → Varies a ∨ Varies o → Varies s := by
    rintro a o rfl hv
    cases o with
    | num c =>
      rcases hv with hv | hv
      · exact .wsum (r := a) (by simp) hv
      · cases hv
    | _ =>
      rcases hv with hv | hv
      · exact .wsum (r := a) (by simp) hv
      · exact .wsum (List.mem_cons_of_mem _ (List.mem_singleton.2 rfl)) hv
  cases a with
  | num x =>
    have hb : Varies b := hv.resolve_left (by rintro ⟨⟩)
    cases b with
    | num y => cases hb
    | wsum rs ss =>
      cases hb with
      | wsum hr hr' => exact hw rs ss (.num x) h (.inl ⟨_, hr, hr'⟩)
    | leaf l => exact hc _ _ (Except.ok.inj h) (.inl hb)
    | const c => cases hb
  | wsum rs ss =>
    refine hw rs ss b h (hv.imp (fun h => ?_) id)
    cases h with
    | wsum hr hr' => exact ⟨_, hr, hr'⟩
  | leaf l => exact hc _ _ (Except.ok.inj h) hv
  | const c => exact hc _ _ (Except.ok.inj h) hv

theorem evaluable_add {E : ℝ} {a b s : Obj} (h : add a b = .ok s) (ha : Evaluable E a) (hb : Evaluable E b) : Evaluable E s := by
  have hw : ∀ rs ss o, wsumAdd rs ss o = .ok s → (∀ r ∈ rs, Evaluable E r) → Evaluable E o → Evaluable E s := by
    intro rs ss o h hr ho
    simp only [wsumAdd, bind, Except.bind] at h
    split at h
    · cases h
    · split at h
      · cases ho
      · cases h
        exact .wsum _ _ fun r h => (List.mem_append.1 h).elim (hr r) (fun h => by rw [List.mem_singleton.1 h]; exact ho)
      · cases h
        exact .wsum _ _ fun r h => (List.mem_append.1 h).elim (hr r) (fun h => by rw [List.mem_singleton.1 h]; exact ho)
      · split at h
        · cases h
        · cases h
          cases ho with
          | wsum _ _ ho => exact .wsum _ _ fun r h => (List.mem_append.1 h).elim (hr r) (ho r)
  have hc : csAdd a b = s → Evaluable E s := by
    rintro rfl
    cases hb with
    | leaf l v e => exact .wsum _ _ (by simp [ha, Evaluable.leaf l v e])
    | const c => exact .wsum _ _ (by simp [ha, Evaluable.const c])
    | wsum rs ss hr => exact .wsum _ _ (by simp [ha, Evaluable.wsum rs ss hr])
  cases ha with
  | leaf l v e => exact hc (Except.ok.inj h)
  | const c => exact hc (Except.ok.inj h)
  | wsum rs ss hr => exact hw rs ss b h hr hb

/-- the values of a cross section as a function -/
theorem evaluable_fun {o : Obj} (h : WF o) {x : List ℝ} (he : ∀ E ∈ x, Evaluable E o) : ∃ σ : ℝ → ℝ, ∀ E ∈ x, value o E = .ok (σ E) ∧ o.call E = .ok (.num (σ E)) := by
  refine ⟨fun E => match value o E with | .ok y => y | .error _ => 0, fun E hE => ?_⟩
  obtain ⟨v, -, -, -, h4⟩ := callArr_spec h [E] (by simpa using he E hE)
  obtain ⟨y, hy, -⟩ := h4 0 (by simp)
  simp only [List.getElem_cons_zero] at hy
  simp only [hy, true_and]
  rw [call_eq_value _ h, hy]
  rfl

/-- C164, sums: on a nondecreasing array of energies, the lower sum of `a + b` is at least the sum of the lower sums and the upper sum is
at most the sum of the upper sums. So the interval reported for the sum of two cross sections lies inside the sum of the two intervals. -/
theorem C164_sum {a b : Obj} (ha : WF a) (hb : WF b) (va : Varies a) (vb : Varies b) (x : List ℝ) (hne : x ≠ []) (hx : x.IsChain (· ≤ ·))
    (ea : ∀ E ∈ x, Evaluable E a) (eb : ∀ E ∈ x, Evaluable E b) :
    ∃ s L₁ D₁ L₂ D₂ L D, add a b = .ok s ∧ darbouxOf a x = .ok (L₁, D₁) ∧ darbouxOf b x = .ok (L₂, D₂) ∧ darbouxOf s x = .ok (L, D) ∧
      L₁ + L₂ ≤ L ∧ L + D ≤ L₁ + D₁ + (L₂ + D₂) ∧ D ≤ D₁ + D₂ := by
  have hn : ¬ (a.isNum = true ∧ b.isNum = true) := by
    rintro ⟨h, -⟩; cases ha <;> simp [isNum] at h
  obtain ⟨s, hs, ws, hv⟩ := C01_sum_evaluates_to_sum a b (.inr ha) (.inr hb) hn
  obtain ⟨σ₁, h₁⟩ := evaluable_fun ha ea
  obtain ⟨σ₂, h₂⟩ := evaluable_fun hb eb
  have e1 := (C149_iff a ha x hne ea).2.2 va σ₁ fun E hE => (h₁ E hE).2
  have e2 := (C149_iff b hb x hne eb).2.2 vb σ₂ fun E hE => (h₂ E hE).2
  have e3 := (C149_iff s ws x hne fun E hE => evaluable_add hs (ea E hE) (eb E hE)).2.2 (varies_add hs (.inl va)) (fun E => σ₁ E + σ₂ E)
    fun E hE => by rw [hv, (h₁ E hE).1, (h₂ E hE).1]; rfl
  cases x with
  | nil => exact absurd rfl hne
  | cons x xs =>
    have l1 := dsum_add_le (g := min) (f₁ := σ₁) (f₂ := σ₂) (f := fun E => σ₁ E + σ₂ E) (fun a b => min_add_min_le_min_add_add) x xs hx
    have l2 := dsum_add_ge (g := max) (f₁ := σ₁) (f₂ := σ₂) (f := fun E => σ₁ E + σ₂ E) (fun a b => max_add_add_le_max_add_max) x xs hx
    have k1 := abs_of_nonneg (sub_nonneg.2 (dsum_le (g := min) (h := max) (fun a b => min_le_max) x (σ₁ x) xs (xs.map σ₁) hx))
    have k2 := abs_of_nonneg (sub_nonneg.2 (dsum_le (g := min) (h := max) (fun a b => min_le_max) x (σ₂ x) xs (xs.map σ₂) hx))
    have k3 := abs_of_nonneg (sub_nonneg.2 (dsum_le (g := min) (h := max) (fun a b => min_le_max) x (σ₁ x + σ₂ x) xs (xs.map fun E => σ₁ E + σ₂ E) hx))
    refine ⟨s, _, _, _, _, _, _, hs, by rw [e1, darboux_fun], by rw [e2, darboux_fun], by rw [e3, darboux_fun], l1, ?_, ?_⟩
    · rw [k1, k2, k3]; linarith
    · rw [k1, k2, k3]; linarith

theorem add_num_comm {a : Obj} (ha : WF a) (c : ℝ) : add a (.num c) = add a (.const c) ∧ add (.num c) a = add a (.num c) := by
  cases ha <;> exact ⟨rfl, rfl⟩

/-- C164, adding a number: the integral grows by exactly the number times the length of the interval, the gap stays. -/
theorem C164_add_number {a : Obj} (ha : WF a) (va : Varies a) (c : ℝ) (x : List ℝ) (hne : x ≠ []) (ea : ∀ E ∈ x, Evaluable E a) :
    ∃ s L D, add a (.num c) = .ok s ∧ add (.num c) a = .ok s ∧ darbouxOf a x = .ok (L, D) ∧
      darbouxOf s x = .ok (L + c * (x.getLast hne - x.head hne), D) := by
  have hn : ¬ (a.isNum = true ∧ (Obj.num c).isNum = true) := by
    rintro ⟨h, -⟩; cases ha <;> simp [isNum] at h
  obtain ⟨s, hs, ws, hv⟩ := C01_sum_evaluates_to_sum a (.num c) (.inr ha) (.inl ⟨c, rfl⟩) hn
  obtain ⟨σ, h⟩ := evaluable_fun ha ea
  have e1 := (C149_iff a ha x hne ea).2.2 va σ fun E hE => (h E hE).2
  have hs' := hs
  rw [(add_num_comm ha c).1] at hs'
  have e2 := (C149_iff s ws x hne fun E hE => evaluable_add hs' (ea E hE) (.const c)).2.2 (varies_add hs (.inl va)) (fun E => σ E + c)
    fun E hE => by rw [hv, (h E hE).1]; rfl
  obtain ⟨f1, L, D, g1, -, -, -, -, -, g6⟩ := C64_function_vs_values x (x.map σ) σ hne (by simp)
  refine ⟨s, L, D, hs, (add_num_comm ha c).2.trans hs, by rw [e1, f1, g1], ?_⟩
  rw [e2, (C64_function_vs_values x (x.map σ) (fun E => σ E + c) hne (by simp)).1, ← g6 c, List.map_map]
  rfl

theorem varies_mul {c : ℝ} {a s : Obj} (h : mul (.num c) a = .ok s) (va : Varies a) : Varies s := by
  cases va with
  | leaf l =>
    rw [mul] at h
    cases h
    exact .wsum (List.mem_singleton.2 rfl) (.leaf l)
  | @wsum rs ss r hr hr' =>
    rw [mul] at h
    cases hm : mulLoop (.num c) rs ss with
    | error e => rw [hm] at h; cases h
    | ok ps => rw [hm] at h; cases h; exact .wsum hr hr'

theorem evaluable_mul {E c : ℝ} {a s : Obj} (h : mul (.num c) a = .ok s) (ea : Evaluable E a) : Evaluable E s := by
  cases ea with
  | leaf l v e =>
    rw [mul] at h
    cases h
    exact .wsum _ _ (by simpa using Evaluable.leaf l v e)
  | const d =>
    rw [mul] at h
    cases h
    exact .wsum _ _ (by simpa using Evaluable.const d)
  | wsum rs ss hr =>
    rw [mul] at h
    cases hm : mulLoop (.num c) rs ss with
    | error e => rw [hm] at h; cases h
    | ok ps => rw [hm] at h; cases h; exact .wsum _ _ hr

/-- C164, factors: a factor that is not negative multiplies both the lower sum and the gap; a negative factor exchanges lower and upper sum. -/
theorem C164_scale {a : Obj} (ha : WF a) (va : Varies a) (c : ℝ) (x : List ℝ) (hne : x ≠ []) (ea : ∀ E ∈ x, Evaluable E a) :
    ∃ s L D, mul (.num c) a = .ok s ∧ darbouxOf a x = .ok (L, D) ∧ (0 ≤ c → darbouxOf s x = .ok (c * L, c * D)) ∧
      (c ≤ 0 → x.IsChain (· ≤ ·) → darbouxOf s x = .ok (c * (L + D), |c| * D)) := by
  obtain ⟨⟨s, hs, ws, hv⟩, -⟩ := C02_scaling a c ha
  obtain ⟨σ, h⟩ := evaluable_fun ha ea
  have e1 := (C149_iff a ha x hne ea).2.2 va σ fun E hE => (h E hE).2
  have e2 := (C149_iff s ws x hne fun E hE => evaluable_mul hs (ea E hE)).2.2 (varies_mul hs va) (fun E => c * σ E)
    fun E hE => by rw [hv, (h E hE).1]; rfl
  have e3 : darboux (vectorised fun E => c * σ E) x = darboux (.vals (.arr (x.map fun E => c * σ E))) x :=
    (C64_function_vs_values x (x.map σ) (fun E => c * σ E) hne (by simp)).1
  obtain ⟨f1, L, D, g1, -, -, -, g4, g5, -⟩ := C64_function_vs_values x (x.map σ) σ hne (by simp)
  refine ⟨s, L, D, hs, by rw [e1, f1, g1], fun hc => ?_, fun hc hx => ?_⟩
  · rw [e2, e3, ← g4 c hc, List.map_map]
    rfl
  · have h5 := g5 hx
    obtain ⟨-, L', D', g1', -, -, -, g4', -, -⟩ := C64_function_vs_values x ((x.map σ).map (- ·)) σ hne (by simp)
    rw [h5] at g1'
    obtain ⟨rfl, rfl⟩ : -(L + D) = L' ∧ D = D' := by simpa using g1'
    have h4 := g4' (-c) (by linarith)
    have el : ((x.map σ).map (- ·)).map ((-c) * ·) = x.map fun E => c * σ E := by
      rw [List.map_map, List.map_map]
      refine List.map_congr_left fun E _ => ?_
      simp
    rw [el] at h4
    rw [e2, e3, h4, abs_of_nonpos hc]
    congr 2
    ring

/-- C164, comparison: the larger of two cross sections has the larger lower sum and the larger upper sum. -/
theorem C164_monotone {a b : Obj} (ha : WF a) (hb : WF b) (va : Varies a) (vb : Varies b) (x : List ℝ) (hne : x ≠ []) (hx : x.IsChain (· ≤ ·))
    (ea : ∀ E ∈ x, Evaluable E a) (eb : ∀ E ∈ x, Evaluable E b)
    (hab : ∀ E ∈ x, ∀ u v, a.call E = .ok (.num u) → b.call E = .ok (.num v) → u ≤ v) :
    ∃ L₁ D₁ L₂ D₂, darbouxOf a x = .ok (L₁, D₁) ∧ darbouxOf b x = .ok (L₂, D₂) ∧ L₁ ≤ L₂ ∧ L₁ + D₁ ≤ L₂ + D₂ := by
  obtain ⟨σ₁, h₁⟩ := evaluable_fun ha ea
  obtain ⟨σ₂, h₂⟩ := evaluable_fun hb eb
  have e1 := (C149_iff a ha x hne ea).2.2 va σ₁ fun E hE => (h₁ E hE).2
  have e2 := (C149_iff b hb x hne eb).2.2 vb σ₂ fun E hE => (h₂ E hE).2
  have hle : ∀ E ∈ x, σ₁ E ≤ σ₂ E := fun E hE => hab E hE _ _ (h₁ E hE).2 (h₂ E hE).2
  clear h₁ h₂ ea eb hab
  cases x with
  | nil => exact absurd rfl hne
  | cons x xs =>
    have key : ∀ (g : ℝ → ℝ → ℝ), (∀ a b c d, a ≤ c → b ≤ d → g a b ≤ g c d) → ∀ x (xs : List ℝ), (x :: xs).IsChain (· ≤ ·) →
        (∀ E ∈ x :: xs, σ₁ E ≤ σ₂ E) → dsum g x xs (σ₁ x) (xs.map σ₁) ≤ dsum g x xs (σ₂ x) (xs.map σ₂) := by
      intro g hg x xs hx hle
      induction xs generalizing x with
      | nil => simp [dsum]
      | cons x' xs ih =>
        rw [List.isChain_cons_cons] at hx
        have h1 := ih x' hx.2 fun E hE => hle E (List.mem_cons_of_mem _ hE)
        have h2 := mul_le_mul_of_nonneg_right (hg _ _ _ _ (hle x (by simp)) (hle x' (by simp))) (sub_nonneg.2 hx.1)
        simp only [List.map_cons, dsum]
        linarith
    have l1 := key min (fun a b c d h1 h2 => min_le_min h1 h2) x xs hx hle
    have l2 := key max (fun a b c d h1 h2 => max_le_max h1 h2) x xs hx hle
    have k1 := abs_of_nonneg (sub_nonneg.2 (dsum_le (g := min) (h := max) (fun a b => min_le_max) x (σ₁ x) xs (xs.map σ₁) hx))
    have k2 := abs_of_nonneg (sub_nonneg.2 (dsum_le (g := min) (h := max) (fun a b => min_le_max) x (σ₂ x) xs (xs.map σ₂) hx))
    refine ⟨_, _, _, _, by rw [e1, darboux_fun], by rw [e2, darboux_fun], l1, ?_⟩
    rw [k1, k2]; linarith

/-- Two cross sections that meet the hypotheses: one of the examples and its sum with a constant. -/
example : WF (.leaf exLeaf) ∧ WF (.wsum [.leaf exLeaf, .const 1] [.num 1, .num 1]) ∧ Varies (.leaf exLeaf) ∧
    Varies (.wsum [.leaf exLeaf, .const 1] [.num 1, .num 1]) ∧ ([1, 2, 4] : List ℝ).IsChain (· ≤ ·) ∧
    (∀ E ∈ [(1 : ℝ), 2, 4], Evaluable E (.leaf exLeaf)) ∧
    (∀ E ∈ [(1 : ℝ), 2, 4], Evaluable E (.wsum [.leaf exLeaf, .const 1] [.num 1, .num 1])) ∧
    ∀ E ∈ [(1 : ℝ), 2, 4], ∀ u v, (Obj.leaf exLeaf).call E = .ok (.num u) →
      (Obj.wsum [.leaf exLeaf, .const 1] [.num 1, .num 1]).call E = .ok (.num v) → u ≤ v := by
  have hl : ∀ E : ℝ, Evaluable E (.leaf exLeaf) := fun E => .leaf _ E rfl
  refine ⟨.leaf _, .wsum _ _ ?_ ?_ (by simp), .leaf _, .wsum (List.mem_cons_self ..) (.leaf _), by norm_num [List.isChain_cons_cons],
    fun E _ => hl E, fun E _ => .wsum _ _ ?_, fun E _ u v hu hv => ?_⟩
  · intro r hr; simp at hr; rcases hr with rfl | rfl
    · exact .leaf _
    · exact .const 1
  · intro s hs; simp at hs; subst hs; exact ⟨_, rfl⟩
  · intro r hr; simp at hr; rcases hr with rfl | rfl
    · exact hl E
    · exact .const 1
  · simp [Obj.call, exLeaf, Except.map] at hu
    simp [Obj.call, Obj.callLoop, exLeaf, Except.map, bind, Except.bind, Obj.mul, Obj.add] at hv
    linarith

end Ries
