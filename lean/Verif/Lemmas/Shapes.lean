import Verif.Lemmas.Resonance
import Verif.Lemmas.State
import Verif.Lemmas.PseudoVoigt

/-! # What the constructors of the shapes produce -/

namespace Ries

theorem getDopplerWidth_ok (k : PhysConst) {amu : ℝ} (ha : amu ≠ 0) (T E : ℝ) :
    getDopplerWidth k amu T E = .ok (dopplerWidth k amu T E) := by
  unfold getDopplerWidth
  rw [if_neg (mul_ne_zero ha k.u_pos.ne')]

theorem dopplerWidth_nonneg (k : PhysConst) (amu T : ℝ) {E : ℝ} (hE : 0 ≤ E) : 0 ≤ dopplerWidth k amu T E := by
  unfold dopplerWidth
  positivity

theorem IsPseudoVoigt.inv {r : Reso} (h : IsPseudoVoigt r) : ∃ w d, PV.Ok w d ∧ 0 < r.er ∧
    r.dist = (mkPV r.er w d).toDist ∧ r.params = [] := by
  obtain ⟨k, init, inter, amu, T, final, w, hr, ha, hT, hE, hw, hw0, hne⟩ := h
  obtain ⟨r0, d, ps, hr0, hd, rfl⟩ := build_inv (s := .pseudoVoigt amu T) hr
  have her : r0.er = inter.exc - init.exc := (mkResonance_inv hr0).1
  have hpos : 0 < r0.er := by rw [her]; linarith
  simp only [Shape.distOf, hw, getDopplerWidth_ok k ha.ne', bind, Except.bind, Except.ok.injEq, Prod.mk.injEq] at hd
  obtain ⟨rfl, rfl⟩ := hd
  refine ⟨w, dopplerWidth k amu T r0.er, ⟨hw0, dopplerWidth_nonneg k amu T hpos.le, ?_⟩, hpos, rfl, rfl⟩
  rcases hne with h | h
  · exact Or.inl h
  · exact Or.inr (dopplerWidth_pos k ha h hpos)

theorem IsVoigt.inv {r : Reso} (h : IsVoigt r) : ∃ w d, PV.Ok w d ∧ 0 < r.er ∧
    r.dist = (mkPV r.er w d).toSemiDist ∧ r.params = [] := by
  obtain ⟨k, init, inter, amu, T, final, w, hr, ha, hT, hE, hw, hw0, hne⟩ := h
  obtain ⟨r0, d, ps, hr0, hd, rfl⟩ := build_inv (s := .voigt amu T) hr
  have her : r0.er = inter.exc - init.exc := (mkResonance_inv hr0).1
  have hpos : 0 < r0.er := by rw [her]; linarith
  simp only [Shape.distOf, hw, getDopplerWidth_ok k ha.ne', bind, Except.bind, Except.ok.injEq, Prod.mk.injEq] at hd
  obtain ⟨rfl, rfl⟩ := hd
  refine ⟨w, dopplerWidth k amu T r0.er, ⟨hw0, dopplerWidth_nonneg k amu T hpos.le, ?_⟩, hpos, rfl, rfl⟩
  rcases hne with h | h
  · exact Or.inl h
  · exact Or.inr (dopplerWidth_pos k ha h hpos)

theorem IsBreitWigner.inv {r : Reso} (h : IsBreitWigner r) : ∃ s, 0 < s ∧ r.dist = cauchyDist ∧ r.params = [r.er, s] := by
  obtain ⟨k, init, inter, final, w, hr, hw, hpos⟩ := h
  obtain ⟨r0, w', h0, hw', rfl⟩ := mkBreitWigner_inv hr
  rw [hw] at hw'; cases hw'
  exact ⟨0.5 * w, by linarith, rfl, rfl⟩

theorem IsGauss.inv {r : Reso} (h : IsGauss r) : ∃ s, 0 < s ∧ r.dist = normDist ∧ r.params = [r.er, s] := by
  obtain ⟨k, init, inter, amu, T, final, hr, ha, hT, hE⟩ := h
  obtain ⟨r0, h0, -, rfl⟩ := mkGauss_inv hr
  have her := (mkResonance_inv h0).1
  have hpos : 0 < r0.er := by rw [her]; unfold noRecoil; linarith
  exact ⟨_, div_pos (dopplerWidth_pos k ha hT hpos) (by positivity), rfl, rfl⟩

theorem pv_sigma {r : Reso} {w d : ℝ} (hok : PV.Ok w d) (hd : r.dist = (mkPV r.er w d).toDist) (hp : r.params = []) :
    r.HasSigma fun E => r.ics * (mkPV r.er w d).pdfR E := by
  intro E
  simp [Reso.call, hd, hp, PV.toDist, PV.pdf, hok.valid, bind, Except.bind, Fl.smul]

theorem sigma_unique {r : Reso} {σ τ : ℝ → ℝ} (h : r.HasSigma σ) (h' : r.HasSigma τ) : σ = τ := by
  funext E
  have := h E
  rw [h' E] at this
  simpa using this.symm

end Ries
