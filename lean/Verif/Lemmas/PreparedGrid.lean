import Verif.Lemmas.RoundedSum

/-! # Computed values and grids of single resonances -/

open MeasureTheory Set

namespace Ries

/-- What is known about a resonance in floating point: `f` computes the values of `σ` with the relative error `ε`, and `grid` consists of
`m + 2` points from `a` to `b` whose intervals carry equal shares of the integral up to the fraction `v`. -/
def Prepared (f : ℝ → Except Err Fl) (grid : Except Err (Option (List Fl))) (σ : ℝ → ℝ) (c a b : ℝ) (m : ℕ) (ε v : ℝ) : Prop :=
  ∃ (F p : ℝ → ℝ) (I : ℝ) (g : List ℝ), GoodCDF F p ∧ Peaked c p ∧ 0 < I ∧ (σ = fun E => I * p E) ∧
    (∀ E ∈ Icc a b, ∃ y, f E = .ok (.fin y) ∧ |y - σ E| ≤ ε * |σ E|) ∧ grid = .ok (some (g.map .fin)) ∧ g.length = m + 2 ∧
    g.head? = some a ∧ g.getLast? = some b ∧ OrderedInside a b g ∧
    ∀ i, (h : i + 1 < g.length) → F g[i + 1] - F g[i] ≤ (F b - F a) / (m + 1) + v

namespace Prepared

variable {f : ℝ → Except Err Fl} {grid : Except Err (Option (List Fl))} {σ : ℝ → ℝ} {c a b ε v u : ℝ} {m : ℕ} {fl : ℝ → ℝ}

theorem share_eq {F p : ℝ → ℝ} {I : ℝ} (hF : GoodCDF F p) (hσ : σ = fun E => I * p E) (a b : ℝ) (m : ℕ) (v : ℝ) :
    ((F b - F a) / (m + 1) + v) * (∫ E, σ E) = (∫ E in a..b, σ E) / (m + 1) + v * ∫ E, σ E := by
  have hint : ∫ E in a..b, σ E = I * (F b - F a) := by
    rw [hσ, intervalIntegral.integral_const_mul,
      intervalIntegral.integral_eq_sub_of_hasDerivAt (fun x _ => hF.deriv x) (hF.cont.intervalIntegrable _ _)]
  have hall : ∫ E, σ E = I := by rw [hσ, integral_const_mul, hF.integral, mul_one]
  rw [hint, hall]
  ring

/-- both computed Darboux sums on the grid -/
theorem integral (h : Prepared f grid σ c a b m ε v) (hu : 0 ≤ u) (hε : 0 ≤ ε) (hfl : Rounding u fl) (hmono : Monotone fl)
    {order : ℕ → SumTree} (ho : (order (m + 1)).Covers (m + 1)) :
    let γ := (1 + ε) * (1 + u) ^ ((order (m + 1)).depth + 2) - 1
    let G := 2 * σ c / min (σ a) (σ b) * ((∫ E in a..b, σ E) / (m + 1) + v * ∫ E, σ E)
    ∃ (g : List ℝ) (L D : ℝ), grid = .ok (some (g.map .fin)) ∧ darbouxCallR fl order f (g.map .fin) = .ok (L, D) ∧
      |L - ∫ E in a..b, σ E| ≤ G + γ * ((∫ E in a..b, σ E) + G) ∧
      |L + D - ∫ E in a..b, σ E| ≤ G + (γ + 2 * u * (1 + γ)) * ((∫ E in a..b, σ E) + G) := by
  obtain ⟨F, p, I, g, hF, hp, hI, hσ, hval, g1, g2, g3, g4, g5, g6⟩ := h
  obtain ⟨L, D, k1, k2, k3⟩ := rounded_integral hu hε hfl hmono hF hp hI hσ hval g2 g3 g4 g5 g6 ho
  rw [share_eq hF hσ] at k2 k3
  exact ⟨g, L, D, g1, k1, k2, k3⟩

/-- the resonance as a constituent of a sum -/
theorem resolves {grid : ℝ → ℝ → ℕ → Except Err (Option (List Fl))} (h : Prepared f (grid a b m) σ c a b m ε v) :
    Resolves fl a b m ε (2 * σ c / min (σ a) (σ b) * ((∫ E in a..b, σ E) / (m + 1) + v * ∫ E, σ E)) σ (.leaf (Leaf.computed f grid)) := by
  obtain ⟨F, p, I, g, hF, hp, hI, hσ, hval, g1, g2, g3, g4, g5, g6⟩ := h
  have hpos : ∀ E, 0 < σ E := by rw [hσ]; exact fun x => mul_pos hI (hF.pos x)
  refine ⟨fun E hE => ?_, fun E _ => (hpos E).le, ?_, g, ?_, List.mem_of_head? g3, List.mem_of_getLast? g4, g5.2, ?_⟩
  · obtain ⟨y, hy, he⟩ := hval E hE
    refine ⟨y, by simp [Obj.callR, Leaf.computed, hy, Bind.bind, Except.bind, Except.map], ?_⟩
    rwa [abs_of_pos (hpos E)] at he
  · rw [hσ]; exact (continuous_const.mul hF.cont).continuousOn
  · have h2 : ¬ ((m : ℤ) + 2 < 2) := by omega
    have h3 : ((m : ℤ) + 2 - 2).toNat = m := by omega
    simp only [Obj.probGridR, Leaf.computed, h2, if_false, h3, g1, Bind.bind, Except.bind]
  · rw [← share_eq hF hσ]
    exact refined_peaked hF hp hI hσ g2 g3 g4 g5 g6

end Prepared

end Ries
