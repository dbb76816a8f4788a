import Verif.Props.RoundedVoigtDensity
import Verif.Props.Conditioning

/-! # Helper lemmas for property C203: a rounded difference of the level energies -/

namespace Ries

open KN

variable {u v : ℝ} {A : RArith} {vp : ℝ → ℝ → ℝ → ℝ}

/-- `RArith.resonance_rel` without an exact difference of the energies -/
theorem RArith.resonance_rel_shifted (hA : A.Accurate u) (hu : 0 ≤ u) (hu1 : u ≤ 1 / 100) {k : PhysConst} {init inter : Level} {final : Option Level}
    (hl : inter.Physical) {r : Reso} (hr : Ries.mkResonance k init inter final noRecoil = .ok r) :
    ∃ ics, A.mkResonance k init inter final = .ok (A.fl r.er, ics) ∧ Rel u (inter.channels + 22) ics r.ics ∧ Rel u 1 (A.fl r.er) r.er := by
  have hu1' : u < 1 := by linarith
  obtain ⟨her, her0, hc, hJ, hst, hbr, ⟨pw, g0, hpw, hg0, hics⟩, -, -⟩ := mkResonance_inv hr
  obtain ⟨st', est, rst⟩ := RArith.div_rel (A := A) (n := 0) (m := 0) hA.fl hu hu1' (Rel.refl hu hu1' ((inter.twoJ : ℝ) + 1))
    (Rel.refl hu hu1' ((init.twoJ : ℝ) + 1)) (q := r.stat) (by simp [fdiv, hJ, hst])
  obtain ⟨br', ebr, rbr⟩ := RArith.branching_rel hA.fl hu hu1' hl hbr
  have rpi : Rel u 2 (A.fl (A.fl Real.pi * k.hbarc)) (Real.pi * k.hbarc) :=
    (((Rel.refl (n := 0) hu hu1' Real.pi).round hA.fl hu hu1').mul hu1' (Rel.refl (n := 0) hu hu1' k.hbarc)).round hA.fl hu hu1'
  have rc : Rel u 9 (A.sq (A.fl (A.fl Real.pi * k.hbarc))) r.const := by
    rw [hc]; exact (Rel.weaken hu hu1 (hA.sq _)).trans hu1' (rpi.pow hu1' 2)
  have re := (Rel.refl (n := 0) hu hu1' r.er).round hA.fl hu hu1'
  have rer : Rel u 7 (A.sq (A.fl r.er)) (r.er ^ 2) := (Rel.weaken hu hu1 (hA.sq _)).trans hu1' (re.pow hu1' 2)
  obtain ⟨q, eq, rq⟩ := RArith.div_rel (A := A) hA.fl hu hu1' rc rer (q := r.const / r.er ^ 2) (by simp [fdiv, her0])
  refine ⟨A.fl (A.fl (A.fl (q * st') * g0) * br'), ?_, ?_, re⟩
  · have e1 : inter.exc - init.exc = r.er := by rw [her]; rfl
    simp only [RArith.mkResonance, RArith.statFactor, est, ebr, RArith.integratedCS, e1, eq, Level.partialWidths, hpw, hg0, bind,
      Except.bind]
  · rw [hics]
    have h1 := (rq.mul hu1' rst).round hA.fl hu hu1'
    have h2 := (h1.mul hu1' (Rel.refl (n := 0) hu hu1' g0)).round hA.fl hu hu1'
    have h3 := (h2.mul hu1' rbr).round hA.fl hu hu1'
    exact h3.mono hu hu1' (by omega)

/-- the computed Breit-Wigner cross section is that of a resonance at the rounded energy -/
theorem RArith.breitWigner_shifted (hA : A.Accurate u) (hu : 0 ≤ u) (hu1 : u ≤ 1 / 110) {k : PhysConst} {init inter : Level} {final : Option Level}
    {r : Reso} {w : ℝ} (hr : Ries.mkResonance k init inter final noRecoil = .ok r) (hl : inter.Physical) (hw : inter.width = .ok w) (hpos : 0 < w)
    (E : ℝ) : ∃ σ', A.breitWigner k init inter final E = .ok (.fin σ') ∧
      LogNear (1.01 * ((4 * inter.channels + 36) * u)) σ' (r.ics * Ries.cauchyPdf (A.fl r.er) (w / 2) E) := by
  have hu1' : u < 1 := by linarith
  obtain ⟨ics, eics, rics, -⟩ := RArith.resonance_rel_shifted hA hu (by linarith) hl hr
  obtain ⟨wr, ewr, rwr, -⟩ := RArith.width_rel hA.fl hu hu1' hl hw
  have rs := ((Rel.refl (n := 0) hu hu1' 0.5).mul hu1' rwr).round hA.fl hu hu1'
  have hs : (0 : ℝ) < 0.5 * w := by linarith
  have hs' : 0 < A.fl (0.5 * wr) := rs.pos hu1' hs
  have rp := RArith.cauchy_rel (l := A.fl r.er) hA hu hu1' hs rs E
  have rv := (rics.mul hu1' rp).round hA.fl hu hu1'
  have e : (0.5 : ℝ) * w = w / 2 := by ring
  refine ⟨A.fl (ics * A.cauchyPdf (A.fl r.er) (A.fl (0.5 * wr)) E), ?_, ?_⟩
  · simp only [RArith.breitWigner, eics, ewr, bind, Except.bind, hs', if_true]
  · rw [← e]
    have := LogNear.of_rel hu hu1 (rv.mono hu hu1' (m := 4 * inter.channels + 36) (by omega))
    push_cast at this
    exact this

/-- a Lorentzian at a slightly different position -/
theorem cauchyPdf_near_shift (l l' E : ℝ) {g : ℝ} (hg : 0 < g) : LogNear (|l' - l| / g) (cauchyPdf l' g E) (cauchyPdf l g E) := by
  have hp : ∀ l, 0 < cauchyPdf l g E := fun l => by
    unfold cauchyPdf
    have := Real.pi_pos
    positivity
  have e : ∀ a b : ℝ, cauchyPdf a g E = cauchyPdf b g (E + (b - a)) := by
    intro a b
    unfold cauchyPdf
    congr 3
    ring
  have key : ∀ a b : ℝ, Real.log (cauchyPdf a g E) - Real.log (cauchyPdf b g E) ≤ |a - b| / g := by
    intro a b
    have h := cauchyPdf_shift_le b E (b - a) hg
    rw [← e a b] at h
    have h' := Real.log_le_log (hp a) h
    rw [Real.log_mul (Real.exp_ne_zero _) (hp b).ne', Real.log_exp, abs_sub_comm] at h'
    linarith
  refine LogNear.of_log (hp _) (hp _) (abs_le.2 ⟨?_, key _ _⟩)
  have := key l l'
  rw [abs_sub_comm] at this
  linarith

/-- a Voigt profile at a slightly different position -/
theorem coldVoigt_near_shift (x x' s : ℝ) {g : ℝ} (hg : 0 < g) : LogNear (|x' - x| / g) (coldVoigt 0 g x' s) (coldVoigt 0 g x s) := by
  have hp : ∀ x, 0 < coldVoigt 0 g x s := fun x => coldVoigt_pos _ _ _ hg
  have key : ∀ a b : ℝ, Real.log (coldVoigt 0 g a s) - Real.log (coldVoigt 0 g b s) ≤ |a - b| / g := by
    intro a b
    have h := coldVoigt_shift_le 0 b (a - b) s hg
    rw [add_sub_cancel] at h
    have h' := Real.log_le_log (hp a) h
    rw [Real.log_mul (Real.exp_ne_zero _) (hp b).ne', Real.log_exp] at h'
    linarith
  refine LogNear.of_log (hp _) (hp _) (abs_le.2 ⟨?_, key _ _⟩)
  have := key x x'
  rw [abs_sub_comm] at this
  linarith

end Ries
