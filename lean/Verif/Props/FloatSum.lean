import Verif.Lemmas.RoundedSum

/-! # Property C190: integrals of sums of cross sections over their common grid in floating point -/

open MeasureTheory Set

namespace Ries

variable {fl : ℝ → ℝ} {u ε a b : ℝ} {m : ℕ}

/-- A constituent of a weighted sum: the object, its factor, its exact cross section, and how well its own grid resolves it. -/
structure Part where
  obj : Obj
  factor : ℝ
  exact : ℝ → ℝ
  bound : ℝ

/-- the weighted sum a user builds from the parts -/
def Part.sum (ps : List Part) : Obj := .wsum (ps.map Part.obj) (ps.map fun P => .num P.factor)

/-- its exact cross section -/
noncomputable def Part.total (ps : List Part) (E : ℝ) : ℝ := (ps.map fun P => P.factor * P.exact E).sum

/-- its resolution -/
noncomputable def Part.bounds (ps : List Part) : ℝ := (ps.map fun P => P.factor * P.bound).sum

theorem round_step (hu : 0 ≤ u) (hfl : Rounding u fl) {e z Z : ℝ} (hZ : 0 ≤ Z) (h : |z - Z| ≤ e * Z) :
    |fl z - Z| ≤ ((1 + e) * (1 + u) - 1) * Z := by
  have h1 := hfl z
  have h2 := abs_sub_le (fl z) z Z
  have h3 : |z| ≤ (1 + e) * Z := by
    have := abs_sub_abs_le_abs_sub z Z
    rw [abs_of_nonneg hZ] at this
    linarith
  have h4 := mul_le_mul_of_nonneg_left h3 hu
  linarith

theorem callLoop_parts (hu : 0 ≤ u) (hε : 0 ≤ ε) (hfl : Rounding u fl) {E : ℝ} (ps : List Part)
    (hps : ∀ P ∈ ps, 0 ≤ P.factor ∧ 0 ≤ P.exact E ∧ ∃ y, P.obj.callR fl E = .ok (.num y) ∧ |y - P.exact E| ≤ ε * P.exact E)
    {n : ℕ} {s S : ℝ} (hS : 0 ≤ S) (hs : |s - S| ≤ ((1 + ε) * (1 + u) ^ (n + 1) - 1) * S) :
    ∃ v, Obj.callLoopR fl (ps.map Part.obj) (ps.map fun P => .num P.factor) (.num s) E = .ok (.num v) ∧
      |v - (S + Part.total ps E)| ≤ ((1 + ε) * (1 + u) ^ (n + ps.length + 1) - 1) * (S + Part.total ps E) := by
  induction ps generalizing n s S with
  | nil => exact ⟨s, by simp [Obj.callLoopR], by simpa [Part.total] using hs⟩
  | cons P ps ih =>
    obtain ⟨hf, hx, y, hy, he⟩ := hps P (by simp)
    have hp0 : 0 ≤ P.factor * P.exact E := mul_nonneg hf hx
    have hp : |fl (P.factor * y) - P.factor * P.exact E| ≤ ((1 + ε) * (1 + u) - 1) * (P.factor * P.exact E) := by
      refine round_step hu hfl hp0 ?_
      rw [← mul_sub, abs_mul, abs_of_nonneg hf]
      have := mul_le_mul_of_nonneg_left he hf
      linarith
    have hpow : (1 + u) ≤ (1 + u) ^ (n + 1) := by
      have h1 : (1 : ℝ) ≤ 1 + u := by linarith
      calc (1 + u) = (1 + u) ^ 1 := (pow_one _).symm
        _ ≤ (1 + u) ^ (n + 1) := pow_le_pow_right₀ h1 (by omega)
    have hp2 : ((1 + ε) * (1 + u) - 1) * (P.factor * P.exact E) ≤ ((1 + ε) * (1 + u) ^ (n + 1) - 1) * (P.factor * P.exact E) := by
      refine mul_le_mul_of_nonneg_right ?_ hp0
      have := mul_le_mul_of_nonneg_left hpow (show 0 ≤ 1 + ε by linarith)
      linarith
    have hsum : |fl (s + fl (P.factor * y)) - (S + P.factor * P.exact E)| ≤
        ((1 + ε) * (1 + u) ^ (n + 1 + 1) - 1) * (S + P.factor * P.exact E) := by
      have h1 : |s + fl (P.factor * y) - (S + P.factor * P.exact E)| ≤ ((1 + ε) * (1 + u) ^ (n + 1) - 1) * (S + P.factor * P.exact E) := by
        have := abs_add_le (s - S) (fl (P.factor * y) - P.factor * P.exact E)
        rw [show s - S + (fl (P.factor * y) - P.factor * P.exact E) = s + fl (P.factor * y) - (S + P.factor * P.exact E) by ring] at this
        linarith
      have := round_step hu hfl (add_nonneg hS hp0) h1
      rwa [show (1 + ((1 + ε) * (1 + u) ^ (n + 1) - 1)) * (1 + u) - 1 = (1 + ε) * (1 + u) ^ (n + 1 + 1) - 1 by ring] at this
    obtain ⟨v, hv, hb⟩ := ih (fun Q hQ => hps Q (by simp [hQ])) (add_nonneg hS hp0) hsum
    refine ⟨v, ?_, ?_⟩
    · simp only [List.map_cons, Obj.callLoopR, hy, Bind.bind, Except.bind, Obj.mulR, Obj.addR]
      exact hv
    · have e1 : S + Part.total (P :: ps) E = S + P.factor * P.exact E + Part.total ps E := by simp [Part.total]; ring
      rw [e1, List.length_cons, show n + (ps.length + 1) + 1 = n + 1 + ps.length + 1 by omega]
      exact hb

theorem total_sum (ps : List Part) (n : ℕ) (x : ℕ → ℝ) (d : ℕ → ℝ) :
    ∑ i ∈ Finset.range n, Part.total ps (x i) * d i = (ps.map fun P => P.factor * ∑ i ∈ Finset.range n, P.exact (x i) * d i).sum := by
  induction ps with
  | nil => simp [Part.total]
  | cons P ps ih =>
    simp only [Part.total, List.map_cons, List.sum_cons] at ih ⊢
    simp only [add_mul, Finset.sum_add_distrib, ih, Finset.mul_sum, mul_assoc]

theorem total_cont {ps : List Part} (h : ∀ P ∈ ps, ContinuousOn P.exact (Icc a b)) : ContinuousOn (Part.total ps) (Icc a b) := by
  induction ps with
  | nil => exact continuousOn_const
  | cons P ps ih =>
    have : Part.total (P :: ps) = fun E => P.factor * P.exact E + Part.total ps E := by
      funext E; simp [Part.total]
    rw [this]
    exact (continuousOn_const.mul (h P (by simp))).add (ih fun Q hQ => h Q (by simp [hQ]))

theorem total_integral (hab : a ≤ b) {ps : List Part} (h : ∀ P ∈ ps, ContinuousOn P.exact (Icc a b)) :
    ∫ E in a..b, Part.total ps E = (ps.map fun P => P.factor * ∫ E in a..b, P.exact E).sum := by
  induction ps with
  | nil => simp [Part.total]
  | cons P ps ih =>
    have e : Part.total (P :: ps) = fun E => P.factor * P.exact E + Part.total ps E := by
      funext E; simp [Part.total]
    have h1 : IntervalIntegrable (fun E => P.factor * P.exact E) volume a b :=
      ContinuousOn.intervalIntegrable (by rw [uIcc_of_le hab]; exact continuousOn_const.mul (h P (by simp)))
    have h2 : IntervalIntegrable (Part.total ps) volume a b :=
      ContinuousOn.intervalIntegrable (by rw [uIcc_of_le hab]; exact total_cont fun Q hQ => h Q (by simp [hQ]))
    rw [e, intervalIntegral.integral_add h1 h2, intervalIntegral.integral_const_mul, ih fun Q hQ => h Q (by simp [hQ])]
    simp

theorem refined_total (hab : a ≤ b) {g : List ℝ} {ps : List Part} (h : ∀ P ∈ ps, ContinuousOn P.exact (Icc a b) ∧ 0 ≤ P.factor ∧ RefinedWithin a b g P.exact P.bound) :
    RefinedWithin a b g (Part.total ps) (Part.bounds ps) := by
  intro x n hx h0 hn hg c _
  rw [total_integral hab fun P hP => (h P hP).1, total_sum ps n (fun i => if c i then x i else x (i + 1)) (fun i => x (i + 1) - x i)]
  clear hab
  induction ps with
  | nil => simp [Part.bounds]
  | cons P ps ih =>
    obtain ⟨-, hf, hr⟩ := h P (by simp)
    have h1 := hr x n hx h0 hn hg c
    have h2 := ih fun Q hQ => h Q (by simp [hQ])
    simp only [Part.bounds, List.map_cons, List.sum_cons] at h2 ⊢
    have h3 := mul_le_mul_of_nonneg_left h1 hf
    rw [← abs_of_nonneg hf, ← abs_mul, abs_of_nonneg hf, mul_sub] at h3
    rw [abs_le] at *
    constructor <;> linarith [h2.1, h2.2, h3.1, h3.2]

theorem RefinedWithin.mono {g g' : List ℝ} {f : ℝ → ℝ} {B : ℝ} (h : RefinedWithin a b g f B) (hg : ∀ y ∈ g, y ∈ g') : RefinedWithin a b g' f B :=
  fun x n hx h0 hn hg' c _ => h x n hx h0 hn (fun y hy => hg' y (hg y hy)) c

/-- the common grid: strictly increasing, the union of the grids of the constituents -/
theorem sum_grid {ps : List Part} (hps : ∀ P ∈ ps, Resolves fl a b m ε P.bound P.exact P.obj) :
    ∃ g : List ℝ, (Part.sum ps).probGridR fl a b m = .ok (g.map .fin) ∧ g.Pairwise (· < ·) ∧ (∀ x ∈ g, a ≤ x ∧ x ≤ b) ∧
      (ps ≠ [] → a ∈ g ∧ b ∈ g) ∧ ∀ P ∈ ps, RefinedWithin a b g P.exact P.bound := by
  obtain ⟨G, hG, h1, h2, h3⟩ : ∃ G : List ℝ, Obj.probGridsR fl (ps.map Part.obj) a b m = .ok (G.map .fin) ∧ (∀ x ∈ G, a ≤ x ∧ x ≤ b) ∧
      (ps ≠ [] → a ∈ G ∧ b ∈ G) ∧ ∀ P ∈ ps, RefinedWithin a b G P.exact P.bound := by
    induction ps with
    | nil => exact ⟨[], by simp [Obj.probGridsR], by simp, by simp, by simp⟩
    | cons P ps ih =>
      obtain ⟨G, hG, h1, -, h3⟩ := ih fun Q hQ => hps Q (by simp [hQ])
      obtain ⟨g, hg, ha, hb, hin, href⟩ := (hps P (by simp)).grid
      refine ⟨g ++ G, ?_, ?_, ?_, ?_⟩
      · simp only [List.map_cons, Obj.probGridsR, hg, hG, Bind.bind, Except.bind, List.map_append]
      · intro x hx
        rcases List.mem_append.1 hx with h | h
        · exact hin x h
        · exact h1 x h
      · exact fun _ => ⟨by simp [ha], by simp [hb]⟩
      · intro Q hQ
        rcases List.mem_cons.1 hQ with rfl | h
        · exact href.mono fun y hy => by simp [hy]
        · exact (h3 Q h).mono fun y hy => by simp [hy]
  obtain ⟨g, hg, hgs⟩ : ∃ g : List ℝ, npUnique (G.map .fin) = g.map .fin ∧ g.Pairwise (· < ·) := by
    have hperm : ∀ x ∈ npUnique (G.map .fin), ∃ y : ℝ, x = .fin y := by
      intro x hx
      rw [npUnique, (List.perm_insertionSort (· ≤ ·) _).mem_iff, List.mem_dedup] at hx
      obtain ⟨y, -, rfl⟩ := List.mem_map.1 hx
      exact ⟨y, rfl⟩
    have hsort : (npUnique (G.map .fin)).Pairwise (· < ·) := by
      have h1 := List.pairwise_insertionSort (· ≤ ·) (G.map Fl.fin).dedup
      have h2 : ((G.map Fl.fin).dedup.insertionSort (· ≤ ·)).Nodup :=
        ((List.perm_insertionSort (· ≤ ·) _).nodup_iff).2 (List.nodup_dedup _)
      exact (h1.and h2).imp fun h => lt_of_le_of_ne h.1 h.2
    generalize npUnique (G.map .fin) = N at *
    obtain ⟨g, rfl⟩ : ∃ g : List ℝ, N = g.map .fin := by
      clear hsort
      induction N with
      | nil => exact ⟨[], rfl⟩
      | cons x xs ih =>
        obtain ⟨y, rfl⟩ := hperm x (by simp)
        obtain ⟨ys, rfl⟩ := ih fun z hz => hperm z (by simp [hz])
        exact ⟨y :: ys, rfl⟩
    rw [List.pairwise_map] at hsort
    exact ⟨g, rfl, hsort.imp fun h => Fl.fin_lt_fin.1 h⟩
  have hmem : ∀ y, y ∈ g ↔ y ∈ G := by
    intro y
    have : (Fl.fin y) ∈ npUnique (G.map .fin) ↔ Fl.fin y ∈ G.map Fl.fin := by
      rw [npUnique, (List.perm_insertionSort (· ≤ ·) _).mem_iff, List.mem_dedup]
    rw [hg] at this
    simpa using this
  refine ⟨g, ?_, hgs, fun x hx => h1 x ((hmem x).1 hx), fun h => ?_, fun P hP => (h3 P hP).mono fun y hy => (hmem y).2 hy⟩
  · rw [Part.sum, Obj.probGridR, hG]
    simp only [Bind.bind, Except.bind, hg]
  · exact ⟨(hmem a).2 (h2 h).1, (hmem b).2 (h2 h).2⟩

/-- C190: a weighted sum of cross sections that are resolved by their own grids is resolved by the common grid; the resolutions add up, and
the relative error of the values grows by one rounding for every constituent and one for its factor. Sums can be nested. -/
theorem C190_sum (hu : 0 ≤ u) (hε : 0 ≤ ε) (hfl : Rounding u fl) (hab : a ≤ b) {ps : List Part} (hne : ps ≠ [])
    (hps : ∀ P ∈ ps, 0 ≤ P.factor ∧ Resolves fl a b m ε P.bound P.exact P.obj) :
    Resolves fl a b m ((1 + ε) * (1 + u) ^ (ps.length + 1) - 1) (Part.bounds ps) (Part.total ps) (Part.sum ps) := by
  refine ⟨fun E hE => ?_, fun E hE => ?_, total_cont fun P hP => (hps P hP).2.cont, ?_⟩
  · obtain ⟨v, hv, hb⟩ := callLoop_parts hu hε hfl (E := E) ps (fun P hP => ⟨(hps P hP).1, (hps P hP).2.nonneg E hE, (hps P hP).2.value E hE⟩)
      (n := 0) (s := 0) (S := 0) le_rfl (by simp)
    refine ⟨v, ?_, by simpa using hb⟩
    rw [Part.sum, Obj.callR]
    exact hv
  · refine List.sum_nonneg fun y hy => ?_
    obtain ⟨P, hP, rfl⟩ := List.mem_map.1 hy
    exact mul_nonneg (hps P hP).1 ((hps P hP).2.nonneg E hE)
  · obtain ⟨g, h1, -, h3, h4, h5⟩ := sum_grid fun P hP => (hps P hP).2
    exact ⟨g, h1, (h4 hne).1, (h4 hne).2, h3, refined_total hab fun P hP => ⟨(hps P hP).2.cont, (hps P hP).1, h5 P hP⟩⟩

/-- computed Darboux sums on an increasing grid that resolves the function -/
theorem resolved_integral (hu : 0 ≤ u) (hε : 0 ≤ ε) (hfl : Rounding u fl) (hmono : Monotone fl) {B : ℝ} {f : ℝ → ℝ} {o : Obj}
    (hab : a < b) (h : Resolves fl a b m ε B f o) {g : List ℝ} (hg : g.Pairwise (· < ·)) (ha : a ∈ g) (hb : b ∈ g) (hin : ∀ x ∈ g, a ≤ x ∧ x ≤ b)
    (hr : RefinedWithin a b g f B) {order : ℕ → SumTree} (ho : (order (g.length - 1)).Covers (g.length - 1)) :
    let γ := (1 + ε) * (1 + u) ^ ((order (g.length - 1)).depth + 2) - 1
    ∃ L D, darbouxCallR fl order (fun E => (valueR fl o E).map .fin) (g.map .fin) = .ok (L, D) ∧
      |L - ∫ E in a..b, f E| ≤ B + γ * ((∫ E in a..b, f E) + B) ∧
      |L + D - ∫ E in a..b, f E| ≤ B + (γ + 2 * u * (1 + γ)) * ((∫ E in a..b, f E) + B) := by
  intro γ
  have hne : g ≠ [] := List.ne_nil_of_mem ha
  have hlen : 0 < g.length := List.length_pos_iff.2 hne
  have hlt : ∀ i j (hi : i < g.length) (hj : j < g.length), i < j → g[i] < g[j] := fun i j hi hj hij =>
    List.pairwise_iff_getElem.1 hg i j hi hj hij
  have e0 : g[0] = a := by
    obtain ⟨i, hi, rfl⟩ := List.getElem_of_mem ha
    rcases Nat.eq_zero_or_pos i with rfl | h0
    · rfl
    · exact le_antisymm (hlt 0 i hlen hi h0).le (hin _ (List.getElem_mem _)).1
  have e1 : g[g.length - 1] = b := by
    obtain ⟨i, hi, rfl⟩ := List.getElem_of_mem hb
    rcases (show i ≤ g.length - 1 by omega).eq_or_lt with h0 | h0
    · simp only [h0]
    · exact le_antisymm (hin _ (List.getElem_mem _)).2 (hlt i (g.length - 1) hi (by omega) h0).le
  have hlast : g.getLast? = some b := by
    rw [List.getLast?_eq_getElem?, List.getElem?_eq_getElem (by omega), e1]
  set d := g.getLastD 0 with hd
  have hdb : d = b := by
    rw [hd, List.getLastD_eq_getLast?, hlast]; rfl
  set x : ℕ → ℝ := fun i => g.getD i d with hx
  have hxi : ∀ i (h : i < g.length), x i = g[i] := fun i h => by simp [hx, h]
  have hxo : ∀ i, g.length ≤ i → x i = b := fun i h => by simp [hx, h, hdb]
  have hmem : ∀ i, x i ∈ Icc a b := by
    intro i
    rcases lt_or_ge i g.length with h | h
    · rw [hxi i h]; exact hin _ (List.getElem_mem h)
    · rw [hxo i h]; exact ⟨hab.le, le_rfl⟩
  have hxm : Monotone x := by
    intro i j hij
    rcases lt_or_ge j g.length with h | h
    · rw [hxi i (by omega), hxi j h]
      rcases hij.eq_or_lt with rfl | hlt'
      · exact le_rfl
      · exact (hlt i j (by omega) h hlt').le
    · rw [hxo j h]; exact (hmem i).2
  have hx0 : x 0 = a := by rw [hxi 0 hlen, e0]
  have hxn : x (g.length - 1) = b := by rw [hxi _ (by omega), e1]
  -- values
  choose yv hy1 hy2 using h.value
  set yf : ℝ → ℝ := fun E => if h : E ∈ Icc a b then yv E h else 0 with hyf
  have hval : ∀ E ∈ Icc a b, (valueR fl o E).map Fl.fin = .ok (.fin (yf E)) := by
    intro E hE
    have h1 := hy1 E hE
    have h2 : yf E = yv E hE := by rw [hyf]; simp only [hE, dif_pos]
    rw [h2]
    cases o with
    | num c => simp [Obj.callR] at h1
    | leaf l => simp [valueR, h1, Except.map]
    | const c => simp [valueR, h1, Except.map]
    | wsum rs ss => simp [valueR, h1, Except.map]
  have hyf2 : ∀ E ∈ Icc a b, |yf E - f E| ≤ ε * |f E| := fun E h' => by
    rw [hyf]; simp only [h', dif_pos, abs_of_nonneg (h.nonneg E h')]; exact hy2 E h'
  have hmap : g.mapM (fun E => (valueR fl o E).map Fl.fin) = .ok ((g.map yf).map .fin) := by
    have : ∀ l : List ℝ, (∀ E ∈ l, E ∈ Icc a b) → l.mapM (fun E => (valueR fl o E).map Fl.fin) = .ok ((l.map yf).map .fin) := by
      intro l
      induction l with
      | nil => intro _; rfl
      | cons E l ih =>
        intro hl
        rw [List.mapM_cons, hval E (hl E (by simp)), ih (fun E' h => hl E' (by simp [h]))]
        rfl
    exact this g (fun E h => hin E h)
  set y : ℕ → ℝ := fun i => (g.map yf).getD i ((g.map yf).getLastD 0) with hy
  have hyx : ∀ i, y i = yf (x i) := by
    intro i
    rcases lt_or_ge i g.length with h | h
    · rw [hxi i h]; simp [hy, h]
    · rw [hxo i h]
      simp only [hy, List.getD_eq_getElem?_getD, List.getElem?_eq_none (show (g.map yf).length ≤ i by simpa using h), Option.getD_none,
        List.getLastD_eq_getLast?, List.getLast?_map, hlast, Option.map_some, Option.getD_some]
  have hcall : darbouxCallR fl order (fun E => (valueR fl o E).map .fin) (g.map .fin) = .ok (darbouxRounded fl (order (g.length - 1)) x y) := by
    unfold darbouxCallR
    rw [finList_map]
    simp only [hmap, Bind.bind, Except.bind, finList_map]
    rfl
  have hpts : ∀ z ∈ g, ∃ i ≤ g.length - 1, x i = z := by
    intro z hz
    obtain ⟨i, hi, rfl⟩ := List.getElem_of_mem hz
    exact ⟨i, by omega, hxi i hi⟩
  have hL := hr x (g.length - 1) hxm hx0 hxn hpts (fun i => f (x i) ≤ f (x (i + 1)))
  have hU := hr x (g.length - 1) hxm hx0 hxn hpts (fun i => f (x (i + 1)) ≤ f (x i))
  have eL : ∀ i, f (if f (x i) ≤ f (x (i + 1)) then x i else x (i + 1)) = min (f (x i)) (f (x (i + 1))) := by
    intro i
    split_ifs with h
    · exact (min_eq_left h).symm
    · exact (min_eq_right (not_le.1 h).le).symm
  have eU : ∀ i, f (if f (x (i + 1)) ≤ f (x i) then x i else x (i + 1)) = max (f (x i)) (f (x (i + 1))) := by
    intro i
    split_ifs with h
    · exact (max_eq_left h).symm
    · exact (max_eq_right (not_le.1 h).le).symm
  simp only [eL] at hL
  simp only [eU] at hU
  have cc := darbouxRounded_close hu hε hfl hmono (f := f) (n := g.length - 1) (x := x) (y := y) hxm (fun i => h.nonneg _ (hmem i))
    (fun i => by rw [hyx]; exact hyf2 _ (hmem i)) ho
  set SL := ∑ i ∈ Finset.range (g.length - 1), min (f (x i)) (f (x (i + 1))) * (x (i + 1) - x i)
  set SU := ∑ i ∈ Finset.range (g.length - 1), max (f (x i)) (f (x (i + 1))) * (x (i + 1) - x i)
  have c1 : |(darbouxRounded fl (order (g.length - 1)) x y).1 - SL| ≤ γ * SU := cc.1
  have c2 : |(darbouxRounded fl (order (g.length - 1)) x y).1 + (darbouxRounded fl (order (g.length - 1)) x y).2 - SU| ≤
      (γ + 2 * u * (1 + γ)) * SU := cc.2
  have hγ : 0 ≤ γ := by
    simp only [γ]
    have h1 : (1 : ℝ) ≤ (1 + u) ^ ((order (g.length - 1)).depth + 2) := one_le_pow₀ (by linarith)
    nlinarith
  exact ⟨_, _, hcall, chain_err hγ c1 hL hU, chain_err (by positivity) c2 hU hU⟩

/-- C190: a weighted sum of cross sections is integrated with the Darboux sums over its own grid, every operation rounded. Both sums differ
from the integral of the exact sum by no more than the resolutions of the constituents and a relative error of the arithmetic. -/
theorem C190_integral (hu : 0 ≤ u) (hε : 0 ≤ ε) (hfl : Rounding u fl) (hmono : Monotone fl) (hab : a < b) {ps : List Part} (hne : ps ≠ [])
    (hps : ∀ P ∈ ps, 0 ≤ P.factor ∧ Resolves fl a b m ε P.bound P.exact P.obj) {order : ℕ → SumTree} (ho : ∀ n, 0 < n → (order n).Covers n) :
    ∃ (g : List ℝ) (L D : ℝ), (Part.sum ps).probGridR fl a b m = .ok (g.map .fin) ∧ g.Pairwise (· < ·) ∧
      (Part.sum ps).gridIntegralR fl order a b m = .ok (L, D) ∧
      let I := ∫ E in a..b, Part.total ps E
      let B := Part.bounds ps
      let γ := (1 + ε) * (1 + u) ^ (ps.length + (order (g.length - 1)).depth + 3) - 1
      |L - I| ≤ B + γ * (I + B) ∧ |L + D - I| ≤ B + (γ + 2 * u * (1 + γ)) * (I + B) := by
  obtain ⟨g, h1, h2, h3, h4, h5⟩ := sum_grid fun P hP => (hps P hP).2
  obtain ⟨ha, hb⟩ := h4 hne
  have hS := C190_sum hu hε hfl hab.le hne hps
  have hlen : 0 < g.length - 1 := by
    obtain ⟨i, hi, ei⟩ := List.getElem_of_mem ha
    obtain ⟨j, hj, ej⟩ := List.getElem_of_mem hb
    by_contra hc
    obtain rfl : i = j := by omega
    rw [ei] at ej
    linarith
  have hε' : 0 ≤ (1 + ε) * (1 + u) ^ (ps.length + 1) - 1 := by
    have h1 : (1 : ℝ) ≤ (1 + u) ^ (ps.length + 1) := one_le_pow₀ (by linarith)
    nlinarith
  obtain ⟨L, D, k1, k2, k3⟩ := resolved_integral hu hε' hfl hmono hab hS h2 ha hb h3
    (refined_total hab.le fun P hP => ⟨(hps P hP).2.cont, (hps P hP).1, h5 P hP⟩) (ho _ hlen)
  have e : (1 + ((1 + ε) * (1 + u) ^ (ps.length + 1) - 1)) * (1 + u) ^ ((order (g.length - 1)).depth + 2) - 1 =
      (1 + ε) * (1 + u) ^ (ps.length + (order (g.length - 1)).depth + 3) - 1 := by ring
  rw [e] at k2 k3
  refine ⟨g, L, D, h1, h2, ?_, k2, k3⟩
  rw [Obj.gridIntegralR, h1]
  exact k1

/-- C190: the common grid has no more points than the grids of the constituents together. -/
theorem C190_points {ps : List Part} {N : ℕ} (hN : ∀ P ∈ ps, ∀ g, P.obj.probGridR fl a b m = .ok g → g.length ≤ N) {g : List Fl}
    (hg : (Part.sum ps).probGridR fl a b m = .ok g) : g.length ≤ ps.length * N := by
  have key : ∀ G, Obj.probGridsR fl (ps.map Part.obj) a b m = .ok G → G.length ≤ ps.length * N := by
    clear hg
    induction ps with
    | nil => rintro G hG; simp only [List.map_nil, Obj.probGridsR, Except.ok.injEq] at hG; simp [← hG]
    | cons P ps ih =>
      intro G hG
      simp only [List.map_cons, Obj.probGridsR, Bind.bind, Except.bind] at hG
      split at hG
      · simp at hG
      · rename_i g1 e1
        split at hG
        · simp at hG
        · rename_i g2 e2
          simp only [Except.ok.injEq] at hG
          have h1 := hN P (by simp) _ e1
          have h2 := ih (fun Q hQ => hN Q (by simp [hQ])) _ e2
          rw [← hG, List.length_append, List.length_cons, Nat.succ_mul]
          omega
  rw [Part.sum, Obj.probGridR] at hg
  simp only [Bind.bind, Except.bind] at hg
  split at hg
  · simp at hg
  · rename_i G eG
    simp only [Except.ok.injEq] at hg
    rw [← hg, npUnique, List.length_insertionSort]
    exact (List.dedup_sublist _).length_le.trans (key G eG)

end Ries
