import Verif.Props.DarbouxConv
import Verif.Props.Grid

/-! # Grids that become dense between the limits -/

open MeasureTheory Set

namespace Ries

/-- The points of `g` are within `[a, b]`, contain both limits, and leave no gap longer than `δ`. -/
structure DenseIn (a b δ : ℝ) (g : List ℝ) : Prop where
  mem : ∀ x ∈ g, a ≤ x ∧ x ≤ b
  left : a ∈ g
  right : b ∈ g
  gap : ∀ x, a ≤ x → x < b → ∃ y ∈ g, x < y ∧ y ≤ x + δ

/-- a sorted list with gaps of at most `δ` leaves no gap longer than `δ` -/
theorem denseIn_of_chain {a b δ : ℝ} {g : List ℝ} (h1 : g.head? = some a) (h2 : g.getLast? = some b)
    (hc : g.IsChain (fun s t => s ≤ t ∧ t - s ≤ δ)) : DenseIn a b δ g := by
  obtain ⟨x, xs, rfl⟩ : ∃ y ys, g = y :: ys := by
    cases g with
    | nil => simp at h1
    | cons y ys => exact ⟨y, ys, rfl⟩
  simp only [List.head?_cons, Option.some.injEq] at h1
  subst h1
  have h2' : (x :: xs).getLast (by simp) = b := by
    rw [List.getLast?_eq_some_getLast (by simp)] at h2
    simpa using h2
  have hpw : (x :: xs).Pairwise (· ≤ ·) := (hc.imp fun _ _ h => h.1).pairwise
  refine ⟨?_, by simp, by rw [← h2']; exact List.getLast_mem _, ?_⟩
  · intro y hy
    constructor
    · rcases List.mem_cons.1 hy with rfl | hy
      · exact le_rfl
      · exact (List.pairwise_cons.1 hpw).1 y hy
    · rw [← h2']; exact hpw.rel_getLast hy
  · clear hpw h2
    intro u hu hub
    induction xs generalizing x with
    | nil => simp at h2'; linarith
    | cons y ys ih =>
      rw [List.isChain_cons_cons] at hc
      rcases lt_or_ge u y with h | h
      · exact ⟨y, by simp, h, by linarith [hc.1.2]⟩
      · obtain ⟨w, hw, h3⟩ := ih y hc.2 (by simpa using h2') h
        exact ⟨w, by simp [List.mem_cons.1 hw], h3⟩

/-- a sorted list that leaves no gap longer than `δ` is a chain with gaps of at most `δ` -/
theorem chain_of_denseIn {a b δ : ℝ} {g : List ℝ} (hs : g.Pairwise (· < ·)) (hd : DenseIn a b δ g) :
    g.head? = some a ∧ g.getLast? = some b ∧ g.IsChain (fun s t => s ≤ t ∧ t - s ≤ δ) := by
  have hne : g ≠ [] := List.ne_nil_of_mem hd.left
  refine ⟨?_, ?_, ?_⟩
  · rw [List.head?_eq_some_head hne]
    congr 1
    refine le_antisymm ?_ (hd.mem _ (List.head_mem hne)).1
    exact (hs.imp le_of_lt).rel_head hd.left
  · rw [List.getLast?_eq_some_getLast hne]
    congr 1
    exact le_antisymm (hd.mem _ (List.getLast_mem hne)).2 ((hs.imp le_of_lt).rel_getLast hd.right)
  · rw [List.isChain_iff_getElem]
    intro i hi
    have hlt : g[i] < g[i + 1] := (List.pairwise_iff_getElem.1 hs) i (i + 1) (by omega) hi (by omega)
    refine ⟨hlt.le, ?_⟩
    obtain ⟨y, hy, h1, h2⟩ := hd.gap g[i] (hd.mem _ (List.getElem_mem _)).1
      (hlt.trans_le (hd.mem _ (List.getElem_mem _)).2)
    obtain ⟨j, hj, rfl⟩ := List.getElem_of_mem hy
    rcases Nat.lt_or_ge i j with h | h
    · rcases (Nat.succ_le_of_lt h).eq_or_lt with e | e
      · simp only [Nat.succ_eq_add_one] at e; subst e; linarith
      · have := (List.pairwise_iff_getElem.1 hs) (i + 1) j hi hj e
        linarith
    · rcases h.eq_or_lt with e | e
      · subst e; exact absurd h1 (lt_irrefl _)
      · have := (List.pairwise_iff_getElem.1 hs) j i hj (by omega) e
        linarith

/-- the equidistant points between two limits -/
theorem linspace_denseIn {a b : ℝ} (hab : a < b) (n : ℤ) (hn : 2 ≤ n) :
    ∃ g : List ℝ, linspace (.fin a) (.fin b) n = .ok (g.map .fin) ∧ g.Pairwise (· < ·) ∧ DenseIn a b ((b - a) / (n - 1)) g := by
  obtain ⟨g, hg, hlen, h1, h2, hstep, hord⟩ := C10_energy_grid a b n hn
  refine ⟨g, hg, ?_, denseIn_of_chain h1 h2 ?_⟩
  · refine List.IsChain.pairwise ?_
    rw [List.isChain_iff_getElem]
    intro i hi
    have h5 : (2 : ℝ) ≤ n := by exact_mod_cast hn
    have : 0 < (b - a) / ((n : ℝ) - 1) := div_pos (by linarith) (by linarith)
    have := hstep i hi
    linarith
  rw [List.isChain_iff_getElem]
  intro i hi
  exact ⟨(List.pairwise_iff_getElem.1 (hord hab.le).1) i (i + 1) (by omega) hi (by omega), (hstep i hi).le⟩

/-- the equal-probability points of a Breit-Wigner or Gauss resonance between two limits -/
theorem resonance_denseIn {r : Reso} (h : IsBreitWigner r ∨ IsGauss r) (hI : 0 < r.ics) {σ : ℝ → ℝ} (hσ : r.HasSigma σ)
    {a b : ℝ} (hab : a < b) (n : ℤ) (hn : 2 ≤ n) :
    ∃ g : List ℝ, r.probGrid (.lims a b) n = .ok (some (g.map .fin)) ∧ g.Pairwise (· < ·) ∧
      DenseIn a b ((∫ E in a..b, σ E) / min (σ a) (σ b) / (n - 1)) g := by
  obtain ⟨g, σ', hg, hσ', hlen, hhead, hlast, hpw, hsh⟩ := C11_limits_grid h hab n hn
  obtain rfl := sigma_unique hσ hσ'
  obtain ⟨p, hp, hpos, hσp⟩ := peaked_of (r := r) (by tauto)
  obtain ⟨F, p', Q, hA⟩ := analytic_of h
  have ep := sigma_unique hσ hσp
  have ep' := sigma_unique hσ hA.sigma
  have hcont : Continuous σ := by
    rw [ep']; exact continuous_const.mul hA.good.cont
  have hpk : Peaked r.er σ := by rw [ep]; exact hp.const_mul hI
  have hσpos : ∀ E, 0 < σ E := by
    intro E; rw [ep]; exact mul_pos hI (hpos E)
  have hm0 : 0 < min (σ a) (σ b) := lt_min (hσpos _) (hσpos _)
  have hlow : ∀ t ∈ Icc a b, min (σ a) (σ b) ≤ σ t := by
    intro t ht
    rcases le_total t r.er with h1 | h1
    · exact (min_le_left _ _).trans (hpk.mono_left h1 ht.1)
    · exact (min_le_right _ _).trans (hpk.anti_right h1 ht.2)
  have hint : ∀ s t, IntervalIntegrable σ volume s t := fun s t => hcont.intervalIntegrable s t
  have hne : g ≠ [] := by rintro rfl; simp at hhead
  have hh : g.head hne = a := by
    rw [List.head?_eq_some_head hne] at hhead; simpa using hhead
  have hl : g.getLast hne = b := by
    rw [List.getLast?_eq_some_getLast hne] at hlast; simpa using hlast
  refine ⟨g, hg, hpw, denseIn_of_chain hhead hlast ?_⟩
  rw [List.isChain_iff_getElem]
  intro i hi
  have hst : g[i] < g[i + 1] := (List.pairwise_iff_getElem.1 hpw) i (i + 1) (by omega) hi (by omega)
  have hs : a ≤ g[i] := by rw [← hh]; exact (hpw.imp le_of_lt).rel_head (List.getElem_mem _)
  have ht : g[i + 1] ≤ b := by rw [← hl]; exact (hpw.imp le_of_lt).rel_getLast (List.getElem_mem _)
  have hshare := hsh i hi
  generalize g[i] = s at *
  generalize g[i + 1] = t at *
  refine ⟨hst.le, ?_⟩
  have h1 := intervalIntegral.integral_mono_on hst.le (intervalIntegrable_const (c := min (σ a) (σ b))) (hint s t)
    (fun y hy => hlow y ⟨hs.trans hy.1, hy.2.trans ht⟩)
  rw [hshare] at h1
  rw [div_right_comm, le_div_iff₀ hm0]
  simpa [mul_comm] using h1

end Ries
