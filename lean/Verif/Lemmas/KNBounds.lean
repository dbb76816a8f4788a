import Verif.Lemmas.KleinNishina
import Mathlib.Analysis.SpecialFunctions.Log.Deriv
import Mathlib.Analysis.Complex.ExponentialBounds

/-! # Rational bounds of the reduced total Klein-Nishina cross section -/

namespace Ries
namespace KN

/-- partial sums of the series of artanh -/
def artSum (y : ℚ) : ℕ → ℚ
  | 0 => 0
  | n + 1 => artSum y n + y ^ (2 * n + 1) / (2 * n + 1)

theorem artSum_eq (y : ℚ) (n : ℕ) :
    ((artSum y n : ℚ) : ℝ) = ∑ i ∈ Finset.range n, (y : ℝ) ^ (2 * i + 1) / (2 * i + 1) := by
  induction n with
  | zero => simp [artSum]
  | succ n ih => rw [Finset.sum_range_succ, ← ih, artSum]; push_cast; ring

/-- lower and upper bound of `log w` from `w / 2 ^ m` -/
def logLow (m : ℕ) (w : ℚ) : ℚ :=
  m * (6931471803 / 10000000000) + 2 * artSum ((w / 2 ^ m - 1) / (w / 2 ^ m + 1)) 12

def logUp (m : ℕ) (w : ℚ) : ℚ :=
  let y := (w / 2 ^ m - 1) / (w / 2 ^ m + 1)
  m * (6931471808 / 10000000000) + 2 * (artSum y 12 + y ^ 25 / (1 - y ^ 2))

theorem log_bounds {m : ℕ} {w : ℚ} (h : 2 ^ m ≤ w) :
    ((logLow m w : ℚ) : ℝ) ≤ Real.log w ∧ Real.log w ≤ ((logUp m w : ℚ) : ℝ) := by
  have hp : (0 : ℚ) < 2 ^ m := by positivity
  obtain ⟨v, hv⟩ : ∃ v : ℚ, v = w / 2 ^ m := ⟨_, rfl⟩
  have hv1 : 1 ≤ v := by rw [hv, le_div_iff₀ hp]; linarith
  have hw : w = 2 ^ m * v := by rw [hv]; field_simp
  obtain ⟨y, hy⟩ : ∃ y : ℚ, y = (v - 1) / (v + 1) := ⟨_, rfl⟩
  have hy0 : 0 ≤ y := by rw [hy]; exact div_nonneg (by linarith) (by linarith)
  have hy1 : y < 1 := by rw [hy, div_lt_one (by linarith)]; linarith
  have hv2 : ((1 + y) / (1 - y) : ℚ) = v := by
    rw [hy]
    have : v + 1 ≠ 0 := by linarith
    field_simp
    ring
  have hlog : Real.log w = m * Real.log 2 + 2 * (1 / 2 * Real.log ((1 + (y : ℝ)) / (1 - y))) := by
    have : ((1 + (y : ℝ)) / (1 - y)) = (v : ℝ) := by exact_mod_cast congrArg (fun q : ℚ => (q : ℝ)) hv2
    have hvr : (0 : ℝ) < v := by exact_mod_cast lt_of_lt_of_le one_pos hv1
    rw [this, hw]
    push_cast
    rw [Real.log_mul (by positivity) hvr.ne', Real.log_pow]
    ring
  have hyr0 : (0 : ℝ) ≤ y := by exact_mod_cast hy0
  have hyr1 : (y : ℝ) < 1 := by exact_mod_cast hy1
  have h1 := Real.sum_range_le_log_div hyr0 hyr1 12
  have h2 := Real.log_div_le_sum_range_add hyr0 hyr1 12
  rw [← artSum_eq] at h1 h2
  have l1 := Real.log_two_gt_d9
  have l2 := Real.log_two_lt_d9
  have hm : (0 : ℝ) ≤ m := Nat.cast_nonneg m
  rw [hlog]
  constructor
  · unfold logLow
    rw [← hv, ← hy]
    push_cast
    have : (m : ℝ) * (6931471803 / 10000000000) ≤ m * Real.log 2 :=
      mul_le_mul_of_nonneg_left (by norm_num at l1 ⊢; linarith) hm
    linarith
  · simp only [logUp]
    rw [← hv, ← hy]
    push_cast
    have : (m : ℝ) * Real.log 2 ≤ m * (6931471808 / 10000000000) :=
      mul_le_mul_of_nonneg_left (by norm_num at l2 ⊢; linarith) hm
    norm_num at h2
    linarith

/-- upper and lower bound of the reduced cross section at `x`; `m` is chosen such that `2 ^ m ≤ 1 + 2 x` -/
def redUp (m : ℕ) (x : ℚ) : ℚ :=
  let c := (x - 2) * x - 2
  (2 * x * (2 + x * (1 + x) * (8 + x)) / (1 + 2 * x) ^ 2 +
    c * (if 0 ≤ c then logUp m (1 + 2 * x) else logLow m (1 + 2 * x))) / x ^ 3

def redLow (m : ℕ) (x : ℚ) : ℚ :=
  let c := (x - 2) * x - 2
  (2 * x * (2 + x * (1 + x) * (8 + x)) / (1 + 2 * x) ^ 2 +
    c * (if 0 ≤ c then logLow m (1 + 2 * x) else logUp m (1 + 2 * x))) / x ^ 3

theorem red_bounds {m : ℕ} {x : ℚ} (hx : 0 < x) (h : 2 ^ m ≤ 1 + 2 * x) :
    ((redLow m x : ℚ) : ℝ) ≤ angInt x ∧ angInt x ≤ ((redUp m x : ℚ) : ℝ) := by
  have hxr : (0 : ℝ) < x := by exact_mod_cast hx
  obtain ⟨l1, l2⟩ := log_bounds h
  push_cast at l1 l2
  have e : angInt x = ((2 * (x : ℝ) * (2 + x * (1 + x) * (8 + x))) / ((1 + 2 * x) ^ 2)
      + (((x : ℝ) - 2) * x - 2) * Real.log (1 + 2 * x)) / x ^ 3 := by
    rw [angInt_eq hxr, prim_diff hxr]
    field_simp
  have h3 : (0 : ℝ) < (x : ℝ) ^ 3 := by positivity
  rw [e]
  constructor
  · simp only [redLow]
    push_cast
    rw [div_le_div_iff_of_pos_right h3]
    refine add_le_add le_rfl ?_
    split_ifs with hc
    · have hc' : (0 : ℝ) ≤ ((x : ℝ) - 2) * x - 2 := by exact_mod_cast hc
      exact mul_le_mul_of_nonneg_left l1 hc'
    · have hc' : ((x : ℝ) - 2) * x - 2 ≤ 0 := by exact_mod_cast (not_le.1 hc).le
      exact mul_le_mul_of_nonpos_left l2 hc'
  · simp only [redUp]
    push_cast
    rw [div_le_div_iff_of_pos_right h3]
    refine add_le_add le_rfl ?_
    split_ifs with hc
    · have hc' : (0 : ℝ) ≤ ((x : ℝ) - 2) * x - 2 := by exact_mod_cast hc
      exact mul_le_mul_of_nonneg_left l2 hc'
    · have hc' : ((x : ℝ) - 2) * x - 2 ≤ 0 := by exact_mod_cast (not_le.1 hc).le
      exact mul_le_mul_of_nonpos_left l1 hc'

/-- the energies of the tables other than absorption edges, in units of 100 eV and descending, with bounds of the reduced cross
section in units of 10^-7 for electron masses between 0.5109989 and 0.511 MeV -/
def stdEnergies : List (ℕ × ℕ × ℕ × ℕ) :=
  [(200000, 6, 1212576, 1212583), (150000, 5, 1511696, 1511703), (100000, 5, 2043890, 2043898),
   (80000, 5, 2400474, 2400483), (60000, 4, 2935440, 2935450), (50000, 4, 3321691, 3321700), (40000, 4, 3847155, 3847166),
   (30000, 3, 4613479, 4613490), (20000, 3, 5866860, 5866873), (15000, 2, 6877707, 6877720), (12500, 2, 7568905, 7568918),
   (10000, 2, 8466356, 8466370), (8000, 2, 9418460, 9418474), (6000, 1, 10722739, 10722755), (5000, 1, 11591353, 11591369),
   (4000, 1, 12694234, 12694250), (3000, 1, 14168200, 14168216), (2000, 0, 16294021, 16294038),
   (1500, 0, 17782112, 17782128), (1000, 0, 19752032, 19752047), (800, 0, 20735605, 20735619), (600, 0, 21871402, 21871415),
   (500, 0, 22508244, 22508256), (400, 0, 23198967, 23198978), (300, 0, 23950799, 23950809), (200, 0, 24772274, 24772283),
   (150, 0, 25212222, 25212230), (100, 0, 25673525, 25673533), (80, 0, 25864375, 25864381), (60, 0, 26058999, 26059006),
   (50, 0, 26157762, 26157768), (40, 0, 26257511, 26257517), (30, 0, 26358261, 26358266), (20, 0, 26460026, 26460031),
   (15, 0, 26511294, 26511299), (10, 0, 26562822, 26562827)]

theorem stdEnergies_check : stdEnergies.all (fun p =>
    decide (0 < p.1) && decide (2 ^ p.2.1 ≤ 1 + 2 * ((p.1 : ℚ) / 5110)) &&
    decide (2 ^ p.2.1 ≤ 1 + 2 * ((p.1 : ℚ) / 5109989 * 1000)) &&
    decide ((p.2.2.1 : ℚ) / 10000000 ≤ redLow p.2.1 ((p.1 : ℚ) / 5109989 * 1000)) &&
    decide (redUp p.2.1 ((p.1 : ℚ) / 5110) ≤ (p.2.2.2 : ℚ) / 10000000)) = true := by decide +kernel

theorem std_bounds {p : ℕ × ℕ × ℕ × ℕ} (hp : p ∈ stdEnergies) {E m : ℝ} (h1 : 0.5109989 ≤ m) (h2 : m ≤ 0.511) :
    ((p.1 : ℝ) / 10000 ≤ E → angInt (E / m) ≤ (p.2.2.2 : ℝ) / 10000000) ∧
      (E = (p.1 : ℝ) / 10000 → (p.2.2.1 : ℝ) / 10000000 ≤ angInt (E / m)) := by
  have h := List.all_eq_true.1 stdEnergies_check p hp
  clear hp
  obtain ⟨e, n, L, U⟩ := p
  simp only [Bool.and_eq_true, decide_eq_true_eq] at h
  obtain ⟨⟨⟨⟨h3, h4⟩, h5⟩, h6⟩, h7⟩ := h
  have he : (0 : ℚ) < e := by exact_mod_cast h3
  have her : (0 : ℝ) < e := by exact_mod_cast h3
  have hm : 0 < m := by linarith
  have b1 := (red_bounds (m := n) (x := (e : ℚ) / 5110) (by positivity) h4).2
  have b2 := (red_bounds (m := n) (x := (e : ℚ) / 5109989 * 1000) (by positivity) h5).1
  refine ⟨fun hE => ?_, fun hE => ?_⟩
  · refine (angInt_strictAnti.antitoneOn (a := (((e : ℚ) / 5110 : ℚ) : ℝ)) ?_ ?_ ?_).trans (b1.trans ?_)
    · rw [Set.mem_Ici]; push_cast; positivity
    · rw [Set.mem_Ici]; exact div_nonneg (le_trans (by positivity) hE) hm.le
    · push_cast
      rw [le_div_iff₀ hm]
      refine le_trans ?_ hE
      have : (e : ℝ) / 5110 * m ≤ (e : ℝ) / 5110 * 0.511 := mul_le_mul_of_nonneg_left h2 (by positivity)
      refine this.trans (le_of_eq ?_)
      ring
    · have : ((redUp n ((e : ℚ) / 5110) : ℚ) : ℝ) ≤ (((U : ℚ) / 10000000 : ℚ) : ℝ) := Rat.cast_le.2 h7
      push_cast at this
      exact this
  · refine le_trans ?_ ((b2).trans (angInt_strictAnti.antitoneOn (b := (((e : ℚ) / 5109989 * 1000 : ℚ) : ℝ)) ?_ ?_ ?_))
    · have : (((L : ℚ) / 10000000 : ℚ) : ℝ) ≤ ((redLow n ((e : ℚ) / 5109989 * 1000) : ℚ) : ℝ) := Rat.cast_le.2 h6
      push_cast at this
      exact this
    · rw [Set.mem_Ici, hE]; positivity
    · rw [Set.mem_Ici]; push_cast; positivity
    · push_cast
      rw [div_le_iff₀ hm, hE]
      have : (e : ℝ) / 5109989 * 1000 * 0.5109989 ≤ (e : ℝ) / 5109989 * 1000 * m := mul_le_mul_of_nonneg_left h1 (by positivity)
      refine le_trans (le_of_eq ?_) this
      ring

/-- upper bound of the reduced cross section from the next lower energy of the list, and the Thomson limit below it -/
def stdUp (E : ℚ) : ℚ :=
  match stdEnergies.find? fun p => decide ((p.1 : ℚ) / 10000 ≤ E) with
  | some p => (p.2.2.2 : ℚ) / 10000000
  | none => 8 / 3

theorem angInt_le_thomson {x : ℝ} (hx : 0 ≤ x) : angInt x ≤ 8 / 3 := by
  rw [← angInt_zero]
  exact angInt_strictAnti.antitoneOn (Set.mem_Ici.2 le_rfl) hx hx

theorem stdUp_spec {q : ℚ} {E m : ℝ} (h0 : 0 ≤ E) (hq : (q : ℝ) ≤ E) (h1 : 0.5109989 ≤ m) (h2 : m ≤ 0.511) :
    angInt (E / m) ≤ (stdUp q : ℝ) := by
  unfold stdUp
  split
  · rename_i p hp
    have hm := List.mem_of_find?_eq_some hp
    have hs := List.find?_some hp
    simp only [decide_eq_true_eq] at hs
    have hs' : (((p.1 : ℚ) / 10000 : ℚ) : ℝ) ≤ q := Rat.cast_le.2 hs
    push_cast at hs' ⊢
    exact (std_bounds hm h1 h2).1 (hs'.trans hq)
  · have hm : 0 < m := by linarith
    push_cast
    exact angInt_le_thomson (div_nonneg h0 hm.le)

end KN
end Ries
