import Verif.Model.RoundedIntegral
import Verif.Lemmas.DarbouxConv
import Verif.Props.RoundedDarboux
import Verif.Props.RoundedProbGrid
import Verif.Lemmas.RoundedReso
import Verif.Props.Darboux
import Verif.Lemmas.Coverage

/-! # Errors of Darboux sums on computed grids -/

open MeasureTheory Set

namespace Ries

/-- Darboux sums of a peaked function, on a partition whose pieces contain at most `V` of the integral; every piece with the value at
either end. -/
theorem peaked_sums_choice {c : ℝ} {σ : ℝ → ℝ} (hp : Peaked c σ) (hpos : ∀ x, 0 < σ x) (hcont : Continuous σ) {x : ℕ → ℝ} (hx : Monotone x) (n : ℕ)
    {V : ℝ} (hV : ∀ i < n, ∫ t in x i..x (i + 1), σ t ≤ V) (hV0 : 0 ≤ V) {g : ℕ → ℝ → ℝ → ℝ} (hg : ∀ i y y', g i y y' = y ∨ g i y y' = y') :
    |∑ i ∈ Finset.range n, g i (σ (x i)) (σ (x (i + 1))) * (x (i + 1) - x i) - ∫ t in x 0..x n, σ t| ≤
      2 * σ c / min (σ (x 0)) (σ (x n)) * V := by
  set m := min (σ (x 0)) (σ (x n)) with hm
  have hm0 : 0 < m := lt_min (hpos _) (hpos _)
  have hlow : ∀ t ∈ Icc (x 0) (x n), m ≤ σ t := by
    intro t ht
    rcases le_total t c with h1 | h1
    · exact (min_le_left _ _).trans (hp.mono_left h1 ht.1)
    · exact (min_le_right _ _).trans (hp.anti_right h1 ht.2)
  have hint : ∀ s t, IntervalIntegrable σ volume s t := fun s t => hcont.intervalIntegrable s t
  have piece : ∀ i < n, |g i (σ (x i)) (σ (x (i + 1))) * (x (i + 1) - x i) - ∫ t in x i..x (i + 1), σ t| ≤
      V / m * (peakVar c σ (x (i + 1)) - peakVar c σ (x i)) := by
    intro i hi
    have hst := hx (Nat.le_succ i)
    simp only [Nat.succ_eq_add_one] at hst
    have hs := hx (Nat.zero_le i)
    have ht : x (i + 1) ≤ x n := hx hi
    have hVi := hV i hi
    generalize x i = s at *
    generalize x (i + 1) = t at *
    set y := g i (σ s) (σ t) with hy
    set P := peakVar c σ t - peakVar c σ s with hP
    have hyP : ∀ v ∈ Icc s t, |y - σ v| ≤ P := by
      intro v hv
      rcases hg i (σ s) (σ t) with e | e
      · rw [hy, e]; exact peakVar_bound hp s ⟨le_rfl, hst⟩ v hv
      · rw [hy, e]; exact peakVar_bound hp t ⟨hst, le_rfl⟩ v hv
    have hP0 : 0 ≤ P := (abs_nonneg _).trans (hyP s ⟨le_rfl, hst⟩)
    have h1 : m * (t - s) ≤ V := by
      have := intervalIntegral.integral_mono_on hst (intervalIntegrable_const (c := m)) (hint s t)
        (fun y hy => hlow y ⟨hs.trans hy.1, hy.2.trans ht⟩)
      have h2 : m * (t - s) ≤ ∫ u in s..t, σ u := by simpa [mul_comm] using this
      exact h2.trans hVi
    have h2 : t - s ≤ V / m := by rw [le_div_iff₀ hm0]; linarith
    have e : y * (t - s) - ∫ v in s..t, σ v = ∫ v in s..t, (y - σ v) := by
      rw [intervalIntegral.integral_sub (by simp) (hint s t)]; simp [mul_comm]
    rw [e]
    have := intervalIntegral.norm_integral_le_of_norm_le_const (a := s) (b := t) (f := fun v => y - σ v) (C := P) (fun v hv => by
      rw [uIoc_of_le hst] at hv
      exact hyP v ⟨hv.1.le, hv.2⟩)
    rw [Real.norm_eq_abs, abs_of_nonneg (sub_nonneg.2 hst)] at this
    exact this.trans (by rw [mul_comm]; exact mul_le_mul_of_nonneg_right h2 hP0)
  rw [← intervalIntegral.sum_integral_adjacent_intervals (fun i _ => hint _ _), ← Finset.sum_sub_distrib]
  refine (Finset.abs_sum_le_sum_abs _ _).trans ((Finset.sum_le_sum fun i hi => piece i (Finset.mem_range.1 hi)).trans ?_)
  rw [← Finset.mul_sum, Finset.sum_range_sub (fun i => peakVar c σ (x i))]
  have := mul_le_mul_of_nonneg_left (peakVar_total hp hpos (x 0) (x n)) (div_nonneg hV0 hm0.le)
  refine this.trans (le_of_eq ?_)
  ring

theorem peaked_sums {c : ℝ} {σ : ℝ → ℝ} (hp : Peaked c σ) (hpos : ∀ x, 0 < σ x) (hcont : Continuous σ) {x : ℕ → ℝ} (hx : Monotone x) (n : ℕ)
    {V : ℝ} (hV : ∀ i < n, ∫ t in x i..x (i + 1), σ t ≤ V) (hV0 : 0 ≤ V) {g : ℝ → ℝ → ℝ} (hg : ∀ y y', g y y' = y ∨ g y y' = y') :
    |∑ i ∈ Finset.range n, g (σ (x i)) (σ (x (i + 1))) * (x (i + 1) - x i) - ∫ t in x 0..x n, σ t| ≤
      2 * σ c / min (σ (x 0)) (σ (x n)) * V :=
  peaked_sums_choice hp hpos hcont hx n hV hV0 (g := fun _ => g) fun _ => hg

/-- Rounding errors of the two sums. -/
theorem darbouxRounded_close {fl : ℝ → ℝ} {u ε : ℝ} (hu : 0 ≤ u) (hε : 0 ≤ ε) (hfl : Rounding u fl) (hmono : Monotone fl) {f : ℝ → ℝ} {n : ℕ}
    {x y : ℕ → ℝ} (hx : Monotone x) (hf : ∀ i, 0 ≤ f (x i)) (hy : ∀ i, |y i - f (x i)| ≤ ε * |f (x i)|) {t : SumTree} (ht : t.Covers n) :
    let γ := (1 + ε) * (1 + u) ^ (t.depth + 2) - 1
    let L := ∑ i ∈ Finset.range n, min (f (x i)) (f (x (i + 1))) * (x (i + 1) - x i)
    let U := ∑ i ∈ Finset.range n, max (f (x i)) (f (x (i + 1))) * (x (i + 1) - x i)
    |(darbouxRounded fl t x y).1 - L| ≤ γ * U ∧
      |(darbouxRounded fl t x y).1 + (darbouxRounded fl t x y).2 - U| ≤ (γ + 2 * u * (1 + γ)) * U := by
  intro γ L U
  set M : ℕ → ℝ := fun i => max |f (x i)| |f (x (i + 1))| * (x (i + 1) - x i) with hMd
  have hd : ∀ i, 0 ≤ x (i + 1) - x i := fun i => sub_nonneg.2 (hx (Nat.le_succ i))
  have hε1 : 1 ≤ (1 + ε) * (1 + u) ^ 2 := by nlinarith [mul_nonneg hu hu, mul_nonneg hε hu, mul_nonneg hε (mul_nonneg hu hu)]
  have eM : ∑ i ∈ Finset.range n, M i = U := by
    refine Finset.sum_congr rfl fun i _ => ?_
    simp only [hMd]
    rw [abs_of_nonneg (hf i), abs_of_nonneg (hf (i + 1))]
  have key : ∀ (g : ℝ → ℝ → ℝ), (∀ a b, |g a b| ≤ max |a| |b|) → (∀ a b c d, |g a b - g c d| ≤ max |a - c| |b - d|) →
      |t.eval fl (fun i => fl (g (y i) (y (i + 1)) * fl (x (i + 1) - x i))) -
        ∑ i ∈ Finset.range n, g (f (x i)) (f (x (i + 1))) * (x (i + 1) - x i)| ≤ γ * U := by
    intro g hg1 hg2
    have := (SumTree.eval_err hu hfl (v := fun i => fl (g (y i) (y (i + 1)) * fl (x (i + 1) - x i)))
      (w := fun i => g (f (x i)) (f (x (i + 1))) * (x (i + 1) - x i)) (M := M) (g := (1 + ε) * (1 + u) ^ 2)
      (fun i => by
        rw [abs_mul, abs_of_nonneg (hd i)]
        exact mul_le_mul_of_nonneg_right (hg1 _ _) (hd i))
      (fun i => leaf_err hu hfl hε (hd i) (hg1 _ _) ((hg2 _ _ _ _).trans (by
        rw [mul_max_of_nonneg _ _ hε]
        exact max_le_max (hy i) (hy (i + 1))))) hε1 t).1
    rw [ht.sum, ht.sum, mul_assoc, ← pow_add, add_comm 2, eM] at this
    exact this
  have l1 := key min (fun a b => abs_min_le_max_abs_abs) (fun a b c d => abs_min_sub_min_le_max a b c d)
  have r1 := key max (fun a b => abs_max_le_max_abs_abs) (fun a b c d => abs_max_sub_max_le_max a b c d)
  set L' := lowerRounded fl t x y with hL'
  set U' := upperRounded fl t x y with hU'
  have l1' : |L' - L| ≤ γ * U := l1
  have r1' : |U' - U| ≤ γ * U := r1
  have f0 : fl 0 = 0 := by simpa using hfl 0
  have hLU : L' ≤ U' := C66_rounded_order fl hmono f0 t x y hx
  have hL0 : 0 ≤ L := Finset.sum_nonneg fun i _ => mul_nonneg (le_min (hf i) (hf (i + 1))) (hd i)
  refine ⟨l1', ?_⟩
  show |L' + |fl (U' - L')| - U| ≤ _
  have p0 : 0 ≤ fl (U' - L') := by rw [← f0]; exact hmono (by linarith)
  rw [abs_of_nonneg p0]
  have h1 := hfl (U' - L')
  rw [abs_of_nonneg (sub_nonneg.2 hLU)] at h1
  have a1 := abs_le.1 l1'
  have a2 := abs_le.1 r1'
  have h2 : U' - L' ≤ 2 * (1 + γ) * U := by
    have hγ : 0 ≤ 1 + γ := by simp only [γ]; ring_nf; positivity
    have hU0 : 0 ≤ U := Finset.sum_nonneg fun i _ => mul_nonneg ((hf i).trans (le_max_left _ _)) (hd i)
    have hγU : 0 ≤ γ * U := (abs_nonneg _).trans l1'
    linarith
  have h3 := h1.trans (mul_le_mul_of_nonneg_left h2 hu)
  have a3 := abs_le.1 h3
  rw [abs_le]
  constructor <;> linarith

theorem chain_err {γ x L U I G : ℝ} (hγ : 0 ≤ γ) (h1 : |x - L| ≤ γ * U) (h2 : |L - I| ≤ G) (h3 : |U - I| ≤ G) : |x - I| ≤ G + γ * (I + G) := by
  have := mul_le_mul_of_nonneg_left (sub_le_iff_le_add.1 (abs_le.1 h3).2) hγ
  have a1 := abs_le.1 h1
  have a2 := abs_le.1 h2
  rw [abs_le]
  constructor <;> linarith

/-- Computed Darboux sums of a peaked function on a computed grid. -/
theorem rounded_integral {fl : ℝ → ℝ} {u ε I V a b c : ℝ} (hu : 0 ≤ u) (hε : 0 ≤ ε) (hfl : Rounding u fl) (hmono : Monotone fl)
    {F p σ : ℝ → ℝ} (hF : GoodCDF F p) (hp : Peaked c p) (hI : 0 < I) (hσ : σ = fun E => I * p E) {f : ℝ → Except Err Fl}
    (hf : ∀ E ∈ Icc a b, ∃ y, f E = .ok (.fin y) ∧ |y - σ E| ≤ ε * |σ E|) {g : List ℝ} {m : ℕ} (hlen : g.length = m + 2)
    (hhead : g.head? = some a) (hlast : g.getLast? = some b) (hord : OrderedInside a b g)
    (hV : ∀ i, (h : i + 1 < g.length) → F g[i + 1] - F g[i] ≤ V) {order : ℕ → SumTree} (ho : (order (m + 1)).Covers (m + 1)) :
    let γ := (1 + ε) * (1 + u) ^ ((order (m + 1)).depth + 2) - 1
    let G := 2 * σ c / min (σ a) (σ b) * (V * ∫ E, σ E)
    ∃ L D, darbouxCallR fl order f (g.map .fin) = .ok (L, D) ∧ |L - ∫ E in a..b, σ E| ≤ G + γ * ((∫ E in a..b, σ E) + G) ∧
      |L + D - ∫ E in a..b, σ E| ≤ G + (γ + 2 * u * (1 + γ)) * ((∫ E in a..b, σ E) + G) := by
  intro γ G
  have hcont : Continuous σ := by rw [hσ]; exact continuous_const.mul hF.cont
  have hpos : ∀ x, 0 < σ x := by rw [hσ]; exact fun x => mul_pos hI (hF.pos x)
  have hpk : Peaked c σ := by rw [hσ]; exact hp.const_mul hI
  have hint : ∀ s t, ∫ E in s..t, σ E = I * (F t - F s) := by
    intro s t
    rw [hσ, intervalIntegral.integral_const_mul, intervalIntegral.integral_eq_sub_of_hasDerivAt (fun x _ => hF.deriv x) (hF.cont.intervalIntegrable _ _)]
  have hall : ∫ E, σ E = I := by rw [hσ, integral_const_mul, hF.integral, mul_one]
  set d := g.getLastD 0 with hd
  have hne : g ≠ [] := by rintro rfl; simp at hlen
  have hdb : d = b := by
    rw [hd, List.getLastD_eq_getLast?, hlast]; rfl
  set x : ℕ → ℝ := fun i => g.getD i d with hx
  have hxi : ∀ i (h : i < g.length), x i = g[i] := fun i h => by simp [hx, h]
  have hxo : ∀ i, g.length ≤ i → x i = b := fun i h => by simp [hx, h, hdb]
  have hmem : ∀ i, x i ∈ Icc a b := by
    intro i
    rcases lt_or_ge i g.length with h | h
    · rw [hxi i h]; exact hord.2 _ (List.getElem_mem h)
    · rw [hxo i h]
      have : b ∈ g := List.mem_of_getLast? hlast
      exact hord.2 _ this
  have hxm : Monotone x := by
    intro i j hij
    rcases lt_or_ge j g.length with h | h
    · rw [hxi i (by omega), hxi j h]
      rcases hij.eq_or_lt with rfl | hlt
      · exact le_rfl
      · exact List.pairwise_iff_getElem.1 hord.1 i j (by omega) h hlt
    · rw [hxo j h]; exact (hmem i).2
  have hx0 : x 0 = a := by
    rw [hxi 0 (by omega)]
    rw [List.head?_eq_getElem?, List.getElem?_eq_getElem (by omega)] at hhead
    simpa using hhead
  have hxn : x (m + 1) = b := by
    rw [hxi (m + 1) (by omega)]
    rw [List.getLast?_eq_getElem?, List.getElem?_eq_getElem (by omega)] at hlast
    have := Option.some.inj hlast
    rw [← this]; congr 1; omega
  have hV0 : 0 ≤ V := by
    have h0 := hV 0 (by omega)
    have h1 := hF.strictMono.monotone (hxm (Nat.zero_le 1))
    rw [hxi 0 (by omega), hxi 1 (by omega)] at h1
    linarith
  have hVI : ∀ i < m + 1, ∫ t in x i..x (i + 1), σ t ≤ V * I := by
    intro i hi
    rw [hint, hxi i (by omega), hxi (i + 1) (by omega), mul_comm]
    exact mul_le_mul_of_nonneg_right (hV i (by omega)) hI.le
  -- values
  choose yv hy1 hy2 using hf
  set yf : ℝ → ℝ := fun E => if h : E ∈ Icc a b then yv E h else 0 with hyf
  have hyf1 : ∀ E ∈ Icc a b, f E = .ok (.fin (yf E)) := fun E h => by rw [hyf]; simp only [h, dif_pos]; exact hy1 E h
  have hyf2 : ∀ E ∈ Icc a b, |yf E - σ E| ≤ ε * |σ E| := fun E h => by rw [hyf]; simp only [h, dif_pos]; exact hy2 E h
  have hmap : g.mapM f = .ok ((g.map yf).map .fin) := by
    have : ∀ l : List ℝ, (∀ E ∈ l, E ∈ Icc a b) → l.mapM f = .ok ((l.map yf).map .fin) := by
      intro l
      induction l with
      | nil => intro _; rfl
      | cons E l ih =>
        intro hl
        rw [List.mapM_cons, hyf1 E (hl E (by simp)), ih (fun E' h => hl E' (by simp [h]))]
        rfl
    exact this g (fun E h => hord.2 E h)
  set y : ℕ → ℝ := fun i => (g.map yf).getD i ((g.map yf).getLastD 0) with hy
  have hyx : ∀ i, y i = yf (x i) := by
    intro i
    rcases lt_or_ge i g.length with h | h
    · rw [hxi i h]; simp [hy, h]
    · rw [hxo i h]
      simp only [hy, List.getD_eq_getElem?_getD, List.getElem?_eq_none (show (g.map yf).length ≤ i by simpa using h), Option.getD_none,
        List.getLastD_eq_getLast?, List.getLast?_map, hlast, Option.map_some, Option.getD_some]
  have hcall : darbouxCallR fl order f (g.map .fin) = .ok (darbouxRounded fl (order (m + 1)) x y) := by
    unfold darbouxCallR
    rw [finList_map]
    simp only [hmap, Bind.bind, Except.bind, finList_map]
    have : g.length - 1 = m + 1 := by omega
    rw [this]
  have hS := fun gg hgg => peaked_sums hpk hpos hcont hxm (m + 1) hVI (mul_nonneg hV0 hI.le) (g := gg) hgg
  have hL := hS min (fun y y' => min_choice y y')
  have hU := hS max (fun y y' => max_choice y y')
  rw [hx0, hxn] at hL hU
  have hG : 2 * σ c / min (σ a) (σ b) * (V * I) = G := by simp only [G, hall]
  rw [hG] at hL hU
  have cc := darbouxRounded_close hu hε hfl hmono (f := σ) (n := m + 1) (x := x) (y := y) hxm (fun i => (hpos _).le)
    (fun i => by rw [hyx]; exact hyf2 _ (hmem i)) ho
  set SL := ∑ i ∈ Finset.range (m + 1), min (σ (x i)) (σ (x (i + 1))) * (x (i + 1) - x i)
  set SU := ∑ i ∈ Finset.range (m + 1), max (σ (x i)) (σ (x (i + 1))) * (x (i + 1) - x i)
  have c1 : |(darbouxRounded fl (order (m + 1)) x y).1 - SL| ≤ γ * SU := cc.1
  have c2 : |(darbouxRounded fl (order (m + 1)) x y).1 + (darbouxRounded fl (order (m + 1)) x y).2 - SU| ≤ (γ + 2 * u * (1 + γ)) * SU := cc.2
  refine ⟨_, _, hcall, ?_, ?_⟩
  · have hγ : 0 ≤ γ := by
      have : 1 ≤ (1 + ε) * (1 + u) ^ ((order (m + 1)).depth + 2) := one_le_mul_of_one_le_of_one_le (by linarith) (one_le_pow₀ (by linarith))
      simp only [γ]; linarith
    exact chain_err hγ c1 hL hU
  · have hγ : 0 ≤ γ + 2 * u * (1 + γ) := by
      have : 1 ≤ (1 + ε) * (1 + u) ^ ((order (m + 1)).depth + 2) := one_le_mul_of_one_le_of_one_le (by linarith) (one_le_pow₀ (by linarith))
      have : 0 ≤ γ := by simp only [γ]; linarith
      positivity
    exact chain_err hγ c2 hU hU

end Ries
