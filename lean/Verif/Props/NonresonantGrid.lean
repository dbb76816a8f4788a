import Verif.Props.Grid
import Verif.Props.KleinNishina
import Verif.Model.NonresonantLeaf
import Mathlib.MeasureTheory.Integral.IntervalIntegral.FundThmCalculus

/-! # Property C150: equal-probability grids of nonresonant processes -/

open MeasureTheory Set

namespace Ries

/-- Every interval of the grid carries less of the integral of `σ` than the one before. -/
def DecreasingShares (σ : ℝ → ℝ) (g : List ℝ) : Prop :=
  ∀ i, (h : i + 2 < g.length) → ∫ E in g[i + 1]..g[i + 2], σ E < ∫ E in g[i]..g[i + 1], σ E

/-- two neighbouring intervals of equal length -/
theorem shift_integral_lt {σ : ℝ → ℝ} {x h : ℝ} (hh : 0 < h) (hσ : StrictAntiOn σ (Icc x (x + h + h))) :
    ∫ E in (x + h)..(x + h + h), σ E < ∫ E in x..(x + h), σ E := by
  have i1 : IntervalIntegrable σ volume x (x + h) :=
    AntitoneOn.intervalIntegrable (by
      rw [uIcc_of_le (by linarith)]
      exact hσ.antitoneOn.mono (Icc_subset_Icc le_rfl (by linarith)))
  have i2 : IntervalIntegrable (fun E => σ (E + h)) volume x (x + h) :=
    AntitoneOn.intervalIntegrable (by
      rw [uIcc_of_le (by linarith)]
      intro a ha b hb hab
      exact hσ.antitoneOn ⟨by linarith [ha.1], by linarith [ha.2]⟩ ⟨by linarith [hb.1], by linarith [hb.2]⟩ (by linarith))
  have e : ∫ E in (x + h)..(x + h + h), σ E = ∫ E in x..(x + h), σ (E + h) := by
    rw [intervalIntegral.integral_comp_add_right (fun E => σ E)]
  have hpos : 0 < ∫ E in x..(x + h), (σ E - σ (E + h)) := by
    refine intervalIntegral.intervalIntegral_pos_of_pos_on (i1.sub i2) (fun t ht => ?_) (by linarith)
    exact sub_pos.2 (hσ ⟨ht.1.le, by linarith [ht.2]⟩ ⟨by linarith [ht.1], by linarith [ht.2]⟩ (by linarith))
  rw [intervalIntegral.integral_sub i1 i2] at hpos
  rw [e]; linarith

/-- On an equidistant grid the shares of a strictly decreasing function decrease. -/
theorem decreasingShares_of_equidistant {σ : ℝ → ℝ} {a b : ℝ} {g : List ℝ} {h : ℝ} (hh : 0 < h)
    (hg : ∀ i, (hi : i + 1 < g.length) → g[i + 1] - g[i] = h) (hin : ∀ x ∈ g, a ≤ x ∧ x ≤ b)
    (hσ : StrictAntiOn σ (Icc a b)) : DecreasingShares σ g := by
  intro i hi
  have h1 := hg i (by omega)
  have h2 := hg (i + 1) (by omega)
  have e1 : g[i + 1] = g[i] + h := by linarith
  have e2 : g[i + 2] = g[i] + h + h := by
    have : g[i + 1 + 1] = g[i + 1] + h := by linarith
    simpa [e1] using this
  rw [e2, e1]
  refine shift_integral_lt hh (hσ.mono ?_)
  have h3 := (hin g[i] (List.getElem_mem _)).1
  have h4 := (hin g[i + 2] (List.getElem_mem _)).2
  rw [e2] at h4
  exact Icc_subset_Icc h3 h4

/-- C150 is false of the code: for Compton scattering, which becomes less likely with increasing energy, every interval of the grid
carries less of the integrated cross section than the one before; for every particle, every range and any number of points from three. -/
theorem C150_refuted (k : PhysConst) (s : KN) (hZ : 0 < s.Z) (hm : 0 < s.mc2) {a b : ℝ} (ha : 0 < a) (hab : a < b) (n : ℤ)
    (hn : 3 ≤ n) :
    ∃ g : List ℝ, (Obj.leaf (s.toLeaf k)).probGrid (.lims a b) n = .ok (g.map .fin) ∧ (g.length : ℤ) = n ∧
      (∀ E ∈ Icc a b, (Obj.leaf (s.toLeaf k)).call E = .ok (.num (s.total k E))) ∧
      DecreasingShares (s.total k) g ∧ ∀ v, ¬ EqualShares (s.total k) g v := by
  obtain ⟨g, h1, h2, -, -, h5, h6⟩ := C10_energy_grid a b n (by omega)
  have hd : DecreasingShares (s.total k) g := by
    refine decreasingShares_of_equidistant (h := (b - a) / (n - 1)) ?_ h5 (h6 hab.le).2 ?_
    · have : (3 : ℝ) ≤ n := by exact_mod_cast hn
      exact div_pos (by linarith) (by linarith)
    · exact (C44_total k s hZ hm).2.1.mono fun x hx => lt_of_lt_of_le ha hx.1
  refine ⟨g, by rw [← h1]; rfl, h2, fun E hE => ?_, hd, fun v hv => ?_⟩
  · have hE0 : 0 < E := ha.trans_le hE.1
    have hx : 0 < E / s.mc2 := div_pos hE0 hm
    have : s.totalFl k E = .ok (.fin (s.total k E)) := by
      unfold KN.totalFl
      rw [if_neg hm.ne']
      simp only
      rw [if_neg hx.ne', if_neg (by positivity), if_neg (by linarith)]
    simp [Obj.call, KN.toLeaf, this, bind, Except.bind, Except.map]
  have := hd 0 (by omega)
  rw [hv 0 (by omega), hv 1 (by omega)] at this
  exact lt_irrefl _ this

/-- C150, the part that holds: constant cross sections have equal shares; for a decreasing nonresonant cross section every share lies
between the ones of the cross sections at the two ends of the range. -/
theorem C150_partial {a b : ℝ} (hab : a ≤ b) (n : ℤ) (hn : 2 ≤ n) :
    (∀ c : ℝ, ∃ g : List ℝ, (Obj.const c).probGrid (.lims a b) n = .ok (g.map .fin) ∧ (g.length : ℤ) = n ∧
      ∀ σ : ℝ → ℝ, (∀ E, (Obj.const c).call E = .ok (.num (σ E))) → EqualShares σ g (c * (b - a) / (n - 1))) ∧
    ∀ l : Leaf, l.grid = constGrid → ∀ σ : ℝ → ℝ, (∀ E ∈ Icc a b, l.eval E = .ok (σ E)) → AntitoneOn σ (Icc a b) →
      ∃ g : List ℝ, (Obj.leaf l).probGrid (.lims a b) n = .ok (g.map .fin) ∧ (g.length : ℤ) = n ∧
        ∀ i, (h : i + 1 < g.length) → σ b * ((b - a) / (n - 1)) ≤ ∫ E in g[i]..g[i + 1], σ E ∧
          ∫ E in g[i]..g[i + 1], σ E ≤ σ a * ((b - a) / (n - 1)) := by
  obtain ⟨g, h1, h2, -, -, h5, h6⟩ := C10_energy_grid a b n hn
  have hn1 : (0 : ℝ) < n - 1 := by
    have : (2 : ℝ) ≤ n := by exact_mod_cast hn
    linarith
  constructor
  · intro c
    refine ⟨g, by rw [← h1]; rfl, h2, fun σ hσ i hi => ?_⟩
    have : σ = fun _ => c := by
      funext E
      have := hσ E
      simp [Obj.call] at this
      exact this.symm
    rw [this, intervalIntegral.integral_const, smul_eq_mul, h5 i hi]
    ring
  · intro l hl σ _ hσ
    refine ⟨g, by rw [← h1, Obj.probGrid, hl]; rfl, h2, fun i hi => ?_⟩
    have hs := h5 i hi
    have m0 := (h6 hab).2 g[i] (List.getElem_mem _)
    have m1 := (h6 hab).2 g[i + 1] (List.getElem_mem _)
    have hle : g[i] ≤ g[i + 1] := by
      have : 0 ≤ (b - a) / (n - 1) := div_nonneg (by linarith) hn1.le
      linarith
    have hint : IntervalIntegrable σ volume g[i] g[i + 1] := AntitoneOn.intervalIntegrable (by
      rw [uIcc_of_le hle]; exact hσ.mono (Icc_subset_Icc m0.1 m1.2))
    have hin : ∀ t ∈ Icc g[i] g[i + 1], t ∈ Icc a b := fun t ht => ⟨m0.1.trans ht.1, ht.2.trans m1.2⟩
    have lo := intervalIntegral.integral_mono_on hle (by simp) hint (fun t ht => hσ (hin t ht) ⟨hab, le_rfl⟩ (hin t ht).2)
    have hi' := intervalIntegral.integral_mono_on hle hint (by simp) (fun t ht => hσ ⟨le_rfl, hab⟩ (hin t ht) (hin t ht).1)
    simp only [intervalIntegral.integral_const, smul_eq_mul, hs] at lo hi'
    exact ⟨by linarith, by linarith⟩

/-- A grid of three points for one electron between 1 and 2 MeV. -/
example : (0 : ℝ) < (KN.electron exConst 1).Z ∧ 0 < (KN.electron exConst 1).mc2 ∧ (0 : ℝ) < 1 ∧ (1 : ℝ) < 2 ∧ (3 : ℤ) ≤ 3 := by
  refine ⟨?_, exConst.me_pos, by norm_num, by norm_num, le_rfl⟩
  simp [KN.electron]

end Ries
