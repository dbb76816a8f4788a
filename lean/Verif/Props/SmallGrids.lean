import Verif.Props.Resonance
import Verif.Props.Grid

/-! # Property C127: grids of one point and of none -/

namespace Ries

/-- C127 is false of the code: with one point, the energy grid over the limits `a < b` is the lower limit (for resonances, and
for constants and nonresonant processes also the probability grid), but the probability grid of a resonance is the *upper* limit.
With no points, the energy grid is empty, but the probability grid of a resonance raises `IndexError`. -/
theorem C127_refuted {r : Reso} (h : IsBreitWigner r ∨ IsGauss r) (a b : ℝ) :
    r.energyGrid (.lims a b) 1 = .ok [.fin a] ∧ constGrid (.lims a b) 1 = .ok [.fin a] ∧
    r.probGrid (.lims a b) 1 = .ok (some [.fin b]) ∧
    r.energyGrid (.lims a b) 0 = .ok [] ∧ constGrid (.lims a b) 0 = .ok [] ∧
    r.probGrid (.lims a b) 0 = .error .indexError := by
  obtain ⟨F, p, Q, hA⟩ := analytic_of h
  refine ⟨linspace_one a b, linspace_one a b, ?_, linspace_zero (.fin a) (.fin b), linspace_zero (.fin a) (.fin b), ?_⟩
  · unfold Reso.probGrid
    have := hA.ppf [F a] (by simp [hA.good.gt_zero a, hA.good.lt_one a])
    simp only [List.map_cons, List.map_nil] at this
    simp only [hA.cdf, List.map_cons, List.map_nil, bind, Except.bind, linspace_one, this, Reso.setEnds, Except.map]
  · unfold Reso.probGrid
    have := hA.ppf [] (by simp)
    simp only [List.map_nil] at this
    simp only [hA.cdf, List.map_cons, List.map_nil, bind, Except.bind, linspace_zero, this, Reso.setEnds, Except.map]

/-- C127: the same for every distribution, also one with rounding errors: a one-point probability grid, if there is one, is the
upper limit, and there is none without points. -/
theorem C127_any_distribution {r : Reso} (hd : r.dist.LengthPreserving) {a b : ℝ} (g : List Fl) :
    (r.probGrid (.lims a b) 1 = .ok (some g) → g = [.fin b]) ∧ r.probGrid (.lims a b) 0 ≠ .ok (some g) := by
  have key : ∀ n : ℤ, r.probGrid (.lims a b) n = .ok (some g) →
      ∃ g0 : List Fl, (g0.length : ℤ) = n ∧ Reso.setEnds (.fin a) (.fin b) g0 = .ok g := by
    intro n h
    unfold Reso.probGrid at h
    simp only [bind, Except.bind] at h
    cases hc : r.dist.cdf r.params [a, b] with
    | error e => simp [hc] at h
    | ok lim =>
      simp only [hc] at h
      match lim with
      | [] => simp at h
      | [_] => simp at h
      | _ :: _ :: _ :: _ => simp at h
      | [l0, l1] =>
        simp only at h
        cases hq : linspace l0 l1 n with
        | error e => simp [hq] at h
        | ok qs =>
          simp only [hq] at h
          cases hp : r.dist.ppf r.params qs with
          | error e => simp [hp] at h
          | ok o =>
            cases o with
            | none => simp [hp] at h
            | some g0 =>
              simp only [hp] at h
              refine ⟨g0, ?_, ?_⟩
              · rw [hd _ _ _ hp]; have := linspace_length hq; omega
              · cases hs : Reso.setEnds (.fin a) (.fin b) g0 with
                | error e => simp [hs, Except.map] at h
                | ok g1 =>
                  simp only [hs, Except.map, Except.ok.injEq, Option.some.injEq] at h
                  rw [h]
  constructor
  · intro h
    obtain ⟨g0, hl, hs⟩ := key 1 h
    match g0 with
    | [] => simp at hl
    | [x] => simpa [Reso.setEnds, eq_comm] using hs
    | _ :: _ :: _ => simp at hl; omega
  · intro h
    obtain ⟨g0, hl, hs⟩ := key 0 h
    match g0 with
    | [] => simp [Reso.setEnds] at hs
    | _ :: _ => simp at hl; omega

example : cauchyDist.LengthPreserving := scipyDist_lengthPreserving _ _ _ _ _

/-- C127: consequently the one-point grid of a sum of a resonance and a constant has two points, the limits. -/
theorem C127_sum_refuted {r : Reso} (h : IsBreitWigner r ∨ IsGauss r) {a b : ℝ} (hab : a < b) (c : ℝ) (ss : List Obj) :
    (Obj.wsum [.leaf r.toLeaf, .const c] ss).probGrid (.lims a b) 1 = .ok [.fin a, .fin b] := by
  obtain ⟨-, h2, h3, -⟩ := C127_refuted h a b
  have g1 : (Obj.leaf r.toLeaf).probGrid (.lims a b) 1 = .ok [.fin b] := by
    simp [Obj.probGrid, Reso.toLeaf, h3, bind, Except.bind]
  have g2 : (Obj.const c).probGrid (.lims a b) 1 = .ok [.fin a] := by simp [Obj.probGrid, h2]
  have hne : Fl.fin b ≠ Fl.fin a := by simpa using hab.ne'
  unfold Obj.probGrid
  simp only [Obj.probGrids, g1, g2, bind, Except.bind, List.cons_append, List.nil_append, npUnique, Except.ok.injEq]
  rw [List.dedup_cons_of_notMem (by simpa using hne), List.dedup_cons_of_notMem (by simp), List.dedup_nil]
  simp [List.insertionSort, List.orderedInsert, hab]

/-- C127, the part that holds: with two points or more both grids begin at the lower and end at the upper limit; a negative number of
points is a `ValueError` in both; for a coverage, both grids of one point are the lower end of the coverage interval and both grids of
no points are empty. -/
theorem C127_partial {r : Reso} (h : IsBreitWigner r ∨ IsGauss r) {a b : ℝ} (hab : a < b) {c : ℝ} (h0 : 0 < c) (h1 : c < 1) :
    (∀ n : ℤ, 2 ≤ n → ∃ g g' : List ℝ, r.energyGrid (.lims a b) n = .ok (g.map .fin) ∧
      r.probGrid (.lims a b) n = .ok (some (g'.map .fin)) ∧ g.length = g'.length ∧
      g.head? = some a ∧ g'.head? = some a ∧ g.getLast? = some b ∧ g'.getLast? = some b) ∧
    (∀ n : ℤ, n < 0 → r.energyGrid (.lims a b) n = .error .valueError ∧ r.probGrid (.lims a b) n = .error .valueError) ∧
    (∃ ci, r.coverageInterval c = .ok ci ∧ r.energyGrid (.cov c) 1 = .ok [ci.lo] ∧ r.probGrid (.cov c) 1 = .ok (some [ci.lo])) ∧
    r.energyGrid (.cov c) 0 = .ok [] ∧ r.probGrid (.cov c) 0 = .ok (some []) := by
  obtain ⟨F, p, Q, hA⟩ := analytic_of h
  obtain ⟨ci, hci, hlo, hhi, -⟩ := hA.coverage h0.le h1 (cdf_default h)
  refine ⟨?_, ?_, ⟨ci, hci, ?_, ?_⟩, ?_, ?_⟩
  · intro n hn
    obtain ⟨g', σ, k1, -, k2, k3, k4, -⟩ := C11_limits_grid h hab n hn
    obtain ⟨g, m1, m2, m3, m4, -⟩ := C10_energy_grid a b n hn
    exact ⟨g, g', m1, k1, by omega, m3, k3, m4, k4⟩
  · intro n hn
    refine ⟨linspace_neg _ _ hn, ?_⟩
    unfold Reso.probGrid
    simp only [hA.cdf, List.map_cons, List.map_nil, bind, Except.bind, linspace_neg _ _ hn]
  · simp only [Reso.energyGrid, hci, bind, Except.bind, hlo, hhi, linspace_one]
  · unfold Reso.probGrid
    have := hA.ppf [0.5 * (1 - c)] (by simp; constructor <;> linarith)
    simp only [List.map_cons, List.map_nil] at this
    simp only [bind, Except.bind, linspace_one, this, hlo]
  · simp only [Reso.energyGrid, hci, bind, Except.bind, linspace_zero]
  · unfold Reso.probGrid
    have := hA.ppf [] (by simp)
    simp only [List.map_nil] at this
    simp only [bind, Except.bind, linspace_zero, this]

example : ∃ r, (IsBreitWigner r ∨ IsGauss r) ∧ (1 : ℝ) < 3 ∧ (0 : ℝ) < 0.9 ∧ (0.9 : ℝ) < 1 := by
  obtain ⟨r, h⟩ := exIsBreitWigner
  exact ⟨r, Or.inl h, by norm_num, by norm_num, by norm_num⟩

end Ries
