import Verif.Props.RoundedProbGrid
import Verif.Lemmas.RnEval

/-! # Property C153: coverage intervals in floating point -/

namespace Ries

/-- Without rounding this is the coverage interval of C16. -/
theorem coverageIntervalR_exact (r : Reso) (c : ℝ) : r.coverageIntervalR id c = r.coverageInterval c := by
  have hf : Fl.rounded id = id := by funext x; cases x <;> rfl
  have hrd : r.dist.rounded id = r.dist := by
    cases hd : r.dist with
    | mk pdf cdf ppf =>
      simp only [Dist.rounded, hf, List.map_id_fun]
      congr 1
      · funext ps x; cases pdf ps x <;> rfl
      · funext ps x; cases cdf ps x <;> rfl
      · funext ps x
        cases ppf ps x with
        | error e => rfl
        | ok v => cases v <;> simp [Except.map]
  unfold Reso.coverageIntervalR Reso.coverageInterval
  simp only [hrd, hf, id]
  rfl

/-- the coverage interval of a scipy distribution with infinite support, once the quantiles are known -/
theorem coverageIntervalR_scipy {pdf cdf ppf : ℝ → ℝ → ℝ → ℝ} {r : Reso} {l s : ℝ}
    (hd : r.dist = scipyDist pdf cdf ppf (fun _ _ => .ninf) (fun _ _ => .pinf)) (hp : r.params = [l, s]) (hs : 0 < s)
    (fl : ℝ → ℝ) (c : ℝ) : ∃ ci, r.coverageIntervalR fl c = .ok ci ∧
      ci.lo = (ppfAt .ninf .pinf (ppf l s) (.fin (fl (0.5 * fl (1 - c))))).rounded fl ∧
      ci.hi = (ppfAt .ninf .pinf (ppf l s) (.fin (fl (0.5 * fl (1 + c))))).rounded fl ∧
      (ci.warnInfinite ↔ ci.hi.isInf) := by
  classical
  unfold Reso.coverageIntervalR
  rw [hd, hp]
  simp only [Dist.rounded, scipyDist, locScale, bind, Except.bind, hs, if_true, List.map_cons, List.map_nil, Except.map,
    Option.map]
  split
  · exact ⟨_, rfl, rfl, rfl, Iff.rfl⟩
  · exact ⟨_, rfl, rfl, rfl, Iff.rfl⟩

theorem largest_below_one : KN.rn (1 - 1 / 2 ^ 53) = 1 - 1 / 2 ^ 53 := by
  rw [KN.rn_val (-1) (2 ^ 53 - 1) (by norm_num) (by norm_num) (by norm_num) (by norm_num)]
  norm_num

/-- C153 is false of the code: for the largest number below 1 of double precision the sum `1.0 + coverage` is rounded to 2,
so the upper limit is infinite (with the warning about it) while the lower limit is finite, for every Breit-Wigner and
every Gauss resonance. (The sum lies halfway between two numbers; rounding to even gives 2 like rounding upwards.) -/
theorem C153_refuted {r : Reso} (h : IsBreitWigner r ∨ IsGauss r) : ∃ c : ℝ, KN.rn c = c ∧ c < 1 ∧
    ∃ ci lo, r.coverageIntervalR KN.rn c = .ok ci ∧ ci.lo = .fin lo ∧ ci.hi = .pinf ∧ ci.warnInfinite := by
  refine ⟨1 - 1 / 2 ^ 53, largest_below_one, by norm_num, ?_⟩
  have e1 : KN.rn (1 + (1 - 1 / 2 ^ 53)) = 2 := by
    rw [KN.rn_val 0 (2 ^ 53) (by norm_num) (by norm_num) (by norm_num) (by norm_num)]
    norm_num
  have e2 : KN.rn (0.5 * 2) = 1 := by
    have : (0.5 : ℝ) * 2 = ((1 : ℤ) : ℝ) := by norm_num
    rw [this, KN.rn_exact (by norm_num)]; norm_num
  have e3 : KN.rn (1 - (1 - 1 / 2 ^ 53)) = 1 / 2 ^ 53 := by
    rw [KN.rn_val (-53) (2 ^ 52) (by norm_num) (by norm_num) (by norm_num) (by norm_num)]
    norm_num
  have e4 : KN.rn (0.5 * (1 / 2 ^ 53)) = 1 / 2 ^ 54 := by
    rw [KN.rn_val (-54) (2 ^ 52) (by norm_num) (by norm_num) (by norm_num) (by norm_num)]
    norm_num
  have key : ∀ {pdf cdf ppf : ℝ → ℝ → ℝ → ℝ} {s : ℝ},
      r.dist = scipyDist pdf cdf ppf (fun _ _ => .ninf) (fun _ _ => .pinf) → r.params = [r.er, s] → 0 < s →
      ∃ ci lo, r.coverageIntervalR KN.rn (1 - 1 / 2 ^ 53) = .ok ci ∧ ci.lo = .fin lo ∧ ci.hi = .pinf ∧ ci.warnInfinite := by
    intro pdf cdf ppf s hd hp hs
    obtain ⟨ci, h1, h2, h3, h4⟩ := coverageIntervalR_scipy hd hp hs KN.rn (1 - 1 / 2 ^ 53)
    rw [e3, e4] at h2
    rw [e1, e2] at h3
    have n1 : (1 : ℝ) / 2 ^ 54 ≠ 0 := by norm_num
    have n2 : (1 : ℝ) / 2 ^ 54 ≠ 1 := by norm_num
    have n3 : (0 : ℝ) < 1 / 2 ^ 54 ∧ (1 : ℝ) / 2 ^ 54 < 1 := by norm_num
    simp only [ppfAt, if_neg n1, if_neg n2, if_pos n3, Fl.rounded] at h2
    simp [ppfAt, Fl.rounded] at h3
    exact ⟨ci, _, h1, h2, h3, by rw [h4, h3]; simp [Fl.isInf]⟩
  rcases h with h | h
  · obtain ⟨s, hd, hp, hs⟩ := breitWigner_params h
    exact key hd hp hs
  · obtain ⟨s, hd, hp, hs⟩ := gauss_params h
    exact key hd hp hs

/-- quantiles in rounded arithmetic -/
theorem rounded_quantile {fl : ℝ → ℝ} {u : ℝ} (hu : 0 ≤ u) (hu1 : u ≤ 1 / 100) (hfl : Rounding u fl) {x : ℝ} (h0 : 0 < x)
    (h1 : x ≤ 2 * (1 - 3 * u)) : 0 < fl (0.5 * fl x) ∧ fl (0.5 * fl x) < 1 ∧ |fl (0.5 * fl x) - 0.5 * x| ≤ 2.01 * u ∨ u = 0 := by
  rcases hu.eq_or_lt with h | hup
  · exact .inr h.symm
  refine .inl ?_
  have a1 := abs_le.1 (hfl x)
  rw [abs_of_pos h0] at a1
  have p1 : 0 < fl x := by nlinarith [a1.1]
  have a2 := abs_le.1 (hfl (0.5 * fl x))
  rw [abs_of_pos (by linarith : 0 < 0.5 * fl x)] at a2
  have b1 : fl x ≤ 2 * (1 - 3 * u) * (1 + u) := by nlinarith [a1.2]
  refine ⟨by nlinarith [a2.1], by nlinarith [a2.2], abs_le.2 ⟨?_, ?_⟩⟩
  · nlinarith [a2.1, a1.1]
  · nlinarith [a2.2, a1.2]

/-- C153, the part that holds: up to a coverage of `1 - 6 u` (`u = 2⁻⁵³` in double precision) both limits are finite and
ordered, there is no warning about an infinite limit, and the probabilities below the two limits are the requested ones up
to `u (3 + 2 M |limit|)`, where `M` is the largest density. Missing: the coverages between `1 - 6 u` and 1, see
`C153_refuted`. -/
theorem C153_partial {r : Reso} (h : IsBreitWigner r ∨ IsGauss r) {F : ℝ → ℝ} (hF : ∀ x, r.dist.cdf r.params [x] = .ok [.fin (F x)])
    {M : ℝ} (hM : ∀ x v, r.dist.pdf r.params x = .ok (.fin v) → v ≤ M) {fl : ℝ → ℝ} {u : ℝ} (hu : 0 < u) (hu1 : u ≤ 1 / 100)
    (hfl : Rounding u fl) (hmono : Monotone fl) {c : ℝ} (h0 : 0 ≤ c) (h1 : c ≤ 1 - 6 * u) :
    ∃ ci lo hi, r.coverageIntervalR fl c = .ok ci ∧ ci.lo = .fin lo ∧ ci.hi = .fin hi ∧ lo ≤ hi ∧ ¬ ci.warnInfinite ∧
      |F lo - (1 - c) / 2| ≤ u * (3 + 2 * M * |lo|) ∧ |F hi - (1 + c) / 2| ≤ u * (3 + 2 * M * |hi|) := by
  have q1 := (rounded_quantile hu.le hu1 hfl (x := 1 - c) (by linarith) (by linarith)).resolve_right hu.ne'
  have q2 := (rounded_quantile hu.le hu1 hfl (x := 1 + c) (by linarith) (by linarith)).resolve_right hu.ne'
  have q12 : fl (0.5 * fl (1 - c)) ≤ fl (0.5 * fl (1 + c)) := by
    refine hmono ?_
    have := hmono (show 1 - c ≤ 1 + c by linarith)
    linarith
  have key : ∀ {pdf cdf ppf : ℝ → ℝ → ℝ → ℝ} {s : ℝ},
      r.dist = scipyDist pdf cdf ppf (fun _ _ => .ninf) (fun _ _ => .pinf) → r.params = [r.er, s] → 0 < s →
      Analytic r (cdf r.er s) (pdf r.er s) (ppf r.er s) →
      ∃ ci lo hi, r.coverageIntervalR fl c = .ok ci ∧ ci.lo = .fin lo ∧ ci.hi = .fin hi ∧ lo ≤ hi ∧ ¬ ci.warnInfinite ∧
      |F lo - (1 - c) / 2| ≤ u * (3 + 2 * M * |lo|) ∧ |F hi - (1 + c) / 2| ≤ u * (3 + 2 * M * |hi|) := by
    intro pdf cdf ppf s hd hp hs hA
    obtain rfl : F = cdf r.er s := by
      funext x
      have := hA.cdf [x]
      rw [hF x] at this
      simpa using this
    obtain ⟨ci, e1, e2, e3, e4⟩ := coverageIntervalR_scipy hd hp hs fl c
    have at' : ∀ q, 0 < q → q < 1 → (ppfAt .ninf .pinf (ppf r.er s) (.fin q)).rounded fl = .fin (fl (ppf r.er s q)) := by
      intro q h0 h1
      simp [ppfAt, h0.ne', h1.ne, h0, h1, Fl.rounded]
    rw [at' _ q1.1 q1.2.1] at e2
    rw [at' _ q2.1 q2.2.1] at e3
    have hM0 : 0 ≤ M := (hA.good.pos 0).le.trans (hM 0 _ (hA.pdf 0))
    have err : ∀ q y, 0 < q → q < 1 → |q - y| ≤ 2.01 * u →
        |cdf r.er s (fl (ppf r.er s q)) - y| ≤ u * (3 + 2 * M * |fl (ppf r.er s q)|) := by
      intro q y h0 h1 hy
      set X := ppf r.er s q
      have a := hfl X
      have b := hA.good.lip (fun x => hM x _ (hA.pdf x)) (fl X) X
      rw [hA.inv q h0 h1] at b
      have c1 : |X| ≤ 2 * |fl X| := by
        have := abs_sub_abs_le_abs_sub X (fl X)
        rw [abs_sub_comm] at this
        have := abs_nonneg X
        nlinarith
      have d : M * |fl X - X| ≤ M * (u * (2 * |fl X|)) :=
        mul_le_mul_of_nonneg_left (a.trans (mul_le_mul_of_nonneg_left c1 hu.le)) hM0
      have e := abs_sub_le (cdf r.er s (fl X)) q y
      nlinarith
    refine ⟨ci, _, _, e1, e2, e3, hmono ?_, by rw [e4, e3]; simp [Fl.isInf], err _ _ q1.1 q1.2.1 ?_, err _ _ q2.1 q2.2.1 ?_⟩
    · rw [← hA.good.strictMono.le_iff_le, hA.inv _ q1.1 q1.2.1, hA.inv _ q2.1 q2.2.1]
      exact q12
    · have := q1.2.2; rwa [show (1 - c) / 2 = 0.5 * (1 - c) by ring]
    · have := q2.2.2; rwa [show (1 + c) / 2 = 0.5 * (1 + c) by ring]
  rcases h with h | h
  · obtain ⟨s, hd, hp, hs⟩ := breitWigner_params h
    exact key hd hp hs (analytic_cauchy hd hp hs)
  · obtain ⟨s, hd, hp, hs⟩ := gauss_params h
    exact key (ppf := fun l s => invOf (normCdf l s)) hd hp hs (analytic_norm hd hp hs)

/-- double precision meets the hypotheses for every coverage up to `1 - 6 / 2^53` -/
example : (0 : ℝ) < 1 / 2 ^ 53 ∧ (1 : ℝ) / 2 ^ 53 ≤ 1 / 100 ∧ Rounding (1 / 2 ^ 53) KN.rn ∧ Monotone KN.rn ∧
    (0.999999 : ℝ) ≤ 1 - 6 * (1 / 2 ^ 53) := by
  refine ⟨by norm_num, by norm_num, KN.rn_rounding, KN.rn_monotone, by norm_num⟩

end Ries
