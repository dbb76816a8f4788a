import Verif.Spec.RoundedReso
import Verif.Lemmas.RoundedKN
import Verif.Lemmas.Shapes

/-! # Rounding errors of Breit-Wigner and Gauss cross sections -/

namespace Ries

open KN

variable {u : ℝ} {A : RArith}

theorem KN.Rel.zero_iff {u a b : ℝ} {n : ℕ} (hu1 : u < 1) (h : Rel u n a b) : a = 0 ↔ b = 0 := by
  obtain ⟨θ, l, -, rfl⟩ := h
  have : 0 < θ := (pow_pos (by linarith) n).trans_le l
  simp [this.ne']

theorem KN.Rel.sqrt {u a b : ℝ} {n : ℕ} (hu : 0 ≤ u) (hu1 : u < 1) (hb : 0 ≤ b) (h : Rel u n a b) : Rel u n (Real.sqrt a) (Real.sqrt b) := by
  obtain ⟨θ, l, r, rfl⟩ := h
  have p : 0 < (1 - u) ^ n := pow_pos (by linarith) n
  have p1 : (1 - u) ^ n ≤ 1 := pow_le_one₀ (by linarith) (by linarith)
  have hθ : 0 < θ := p.trans_le l
  refine ⟨Real.sqrt θ, ?_, ?_, Real.sqrt_mul hb θ⟩
  · apply Real.le_sqrt_of_sq_le
    nlinarith
  · rw [Real.sqrt_le_left (by positivity)]
    have : 1 ≤ ((1 - u) ^ n)⁻¹ := (one_le_inv₀ p).2 p1
    nlinarith

theorem KN.Rel.trans {u a b c : ℝ} {n m : ℕ} (hu1 : u < 1) (h : Rel u n a b) (h' : Rel u m b c) : Rel u (n + m) a c := by
  obtain ⟨θ, l, r, rfl⟩ := h
  obtain ⟨θ', l', r', rfl⟩ := h'
  have p : 0 < (1 - u) ^ n := pow_pos (by linarith) n
  have p' : 0 < (1 - u) ^ m := pow_pos (by linarith) m
  refine ⟨θ * θ', ?_, ?_, by ring⟩
  · rw [pow_add]; exact mul_le_mul l l' p'.le (p.le.trans l)
  · rw [pow_add, mul_inv]; exact mul_le_mul r r' (p'.le.trans l') (by positivity)

theorem RArith.sum_rel (hA : Rounding u A.fl) (hu : 0 ≤ u) (hu1 : u < 1) (l : List ℝ) (hl : ∀ x ∈ l, 0 ≤ x) :
    Rel u l.length (A.sum l) l.sum := by
  suffices h : ∀ (l : List ℝ) (n : ℕ) (s t : ℝ), (∀ x ∈ l, 0 ≤ x) → 0 ≤ t → Rel u n s t →
      Rel u (n + l.length) (l.foldl (fun s x => A.fl (s + x)) s) (t + l.sum) by
    have := h l 0 0 0 hl le_rfl (Rel.refl hu hu1 0)
    simpa [RArith.sum] using this
  intro l
  induction l with
  | nil => intro n s t _ _ h; simpa using h
  | cons x l ih =>
    intro n s t hl ht h
    have hx : 0 ≤ x := hl x (by simp)
    have h1 := (h.add ht hx (Rel.refl hu hu1 x)).round hA hu hu1
    have := ih (n + 1) _ _ (fun y hy => hl y (by simp [hy])) (add_nonneg ht hx) h1
    rw [List.foldl_cons, List.sum_cons, List.length_cons, ← add_assoc t, show n + (l.length + 1) = n + 1 + l.length by ring]
    exact this

theorem RArith.width_rel (hA : Rounding u A.fl) (hu : 0 ≤ u) (hu1 : u < 1) {l : Level} (hl : l.Physical) {w : ℝ} (hw : l.width = .ok w) :
    ∃ w', A.width l = .ok w' ∧ Rel u l.channels w' w ∧ 0 ≤ w := by
  cases h : l.widths with
  | none => simp [Level.width, Level.partialWidths, h, bind, Except.bind] at hw
  | some pw =>
    obtain ⟨hn, hpos⟩ := hl pw h
    rw [width_eq h hn] at hw
    cases hw
    refine ⟨A.sum (pw.map Prod.snd), ?_, ?_, List.sum_nonneg (by simpa using fun x y h => hpos (y, x) h)⟩
    · simp [RArith.width, Level.partialWidths, h, mapM_lookup_nodup pw pw hn (fun _ h => h), bind, Except.bind]
    · have := RArith.sum_rel (A := A) hA hu hu1 (pw.map Prod.snd) (by simpa using fun x y h => hpos (y, x) h)
      simpa [Level.channels, h] using this

theorem RArith.div_rel (hA : Rounding u A.fl) (hu : 0 ≤ u) (hu1 : u < 1) {a b a' b' : ℝ} {n m : ℕ} (h : Rel u n a a') (h' : Rel u m b b')
    {q : ℝ} (hq : fdiv a' b' = .ok q) : ∃ q', A.div a b = .ok q' ∧ Rel u (n + m + 1) q' q := by
  unfold fdiv at hq
  by_cases hb : b' = 0
  · simp [hb] at hq
  · simp only [hb, if_false, Except.ok.injEq] at hq
    subst hq
    refine ⟨A.fl (a / b), ?_, (h.div hu1 h').round hA hu hu1⟩
    have : b ≠ 0 := by rwa [Ne, h'.zero_iff hu1]
    simp [RArith.div, this]

theorem RArith.branching_rel (hA : Rounding u A.fl) (hu : 0 ≤ u) (hu1 : u < 1) {l : Level} (hl : l.Physical) {final : Option Level} {b : ℝ}
    (hb : Ries.branchingRatio l final = .ok b) : ∃ b', A.branchingRatio l final = .ok b' ∧ Rel u (l.channels + 1) b' b := by
  cases final with
  | none =>
    simp only [Ries.branchingRatio, Except.ok.injEq] at hb
    subst hb
    exact ⟨1, rfl, Rel.refl hu hu1 1⟩
  | some f =>
    simp only [Ries.branchingRatio, bind, Except.bind] at hb
    simp only [RArith.branchingRatio, bind, Except.bind]
    cases h1 : l.partialWidths with
    | error e => simp [h1] at hb
    | ok pw =>
      simp only [h1] at hb ⊢
      cases h2 : lookup f.Jpi pw with
      | error e => simp [h2] at hb
      | ok g =>
        simp only [h2] at hb ⊢
        cases h3 : l.width with
        | error e => simp [h3] at hb
        | ok w =>
          simp only [h3] at hb
          obtain ⟨w', e, r, -⟩ := RArith.width_rel hA hu hu1 hl h3
          simp only [e]
          obtain ⟨q, e, r⟩ := RArith.div_rel (n := 0) hA hu hu1 (Rel.refl hu hu1 g) r hb
          exact ⟨q, e, by simpa using r⟩

theorem RArith.resonance_rel (hA : A.Accurate u) (hu : 0 ≤ u) (hu1 : u ≤ 1 / 100) {k : PhysConst} {init inter : Level} {final : Option Level}
    (hl : inter.Physical) (hex : A.fl (inter.exc - init.exc) = inter.exc - init.exc) {r : Reso}
    (hr : Ries.mkResonance k init inter final noRecoil = .ok r) :
    ∃ ics, A.mkResonance k init inter final = .ok (r.er, ics) ∧ Rel u (inter.channels + 20) ics r.ics := by
  have hu1' : u < 1 := by linarith
  obtain ⟨her, her0, hc, hJ, hst, hbr, ⟨pw, g0, hpw, hg0, hics⟩, -, -⟩ := mkResonance_inv hr
  obtain ⟨st', est, rst⟩ := RArith.div_rel (A := A) (n := 0) (m := 0) hA.fl hu hu1' (Rel.refl hu hu1' ((inter.twoJ : ℝ) + 1))
    (Rel.refl hu hu1' ((init.twoJ : ℝ) + 1)) (q := r.stat) (by simp [fdiv, hJ, hst])
  obtain ⟨br', ebr, rbr⟩ := RArith.branching_rel hA.fl hu hu1' hl hbr
  have rpi : Rel u 2 (A.fl (A.fl Real.pi * k.hbarc)) (Real.pi * k.hbarc) :=
    (((Rel.refl (n := 0) hu hu1' Real.pi).round hA.fl hu hu1').mul hu1' (Rel.refl (n := 0) hu hu1' k.hbarc)).round hA.fl hu hu1'
  have rc : Rel u 9 (A.sq (A.fl (A.fl Real.pi * k.hbarc))) r.const := by
    rw [hc]; exact (Rel.weaken hu hu1 (hA.sq _)).trans hu1' (rpi.pow hu1' 2)
  have rer : Rel u 5 (A.sq r.er) (r.er ^ 2) := Rel.weaken hu hu1 (hA.sq _)
  obtain ⟨q, eq, rq⟩ := RArith.div_rel (A := A) hA.fl hu hu1' rc rer (q := r.const / r.er ^ 2) (by simp [fdiv, her0])
  refine ⟨A.fl (A.fl (A.fl (q * st') * g0) * br'), ?_, ?_⟩
  · have e1 : A.fl (inter.exc - init.exc) = r.er := by rw [hex, her]; rfl
    simp only [RArith.mkResonance, RArith.statFactor, est, ebr, RArith.integratedCS, e1, eq, Level.partialWidths, hpw, hg0, bind,
      Except.bind]
  · rw [hics]
    have h1 := (rq.mul hu1' rst).round hA.fl hu hu1'
    have h2 := (h1.mul hu1' (Rel.refl (n := 0) hu hu1' g0)).round hA.fl hu hu1'
    have h3 := (h2.mul hu1' rbr).round hA.fl hu hu1'
    exact h3.mono hu hu1' (by omega)

theorem RArith.cauchy_rel (hA : A.Accurate u) (hu : 0 ≤ u) (hu1 : u < 1) {l s s' : ℝ} {n : ℕ} (hs : 0 < s) (r : Rel u n s' s) (E : ℝ) :
    Rel u (3 * n + 10) (A.cauchyPdf l s' E) (Ries.cauchyPdf l s E) := by
  have h1 := (Rel.refl (n := 0) hu hu1 (E - l)).round hA.fl hu hu1
  have hz := (h1.div hu1 r).round hA.fl hu hu1
  have hz2 := (hz.mul hu1 hz).round hA.fl hu hu1
  have h3 := ((Rel.refl hu hu1 1).add (by norm_num) (mul_self_nonneg ((E - l) / s)) hz2).round hA.fl hu hu1
  have h4 := ((Rel.refl (n := 0) hu hu1 1).div hu1 ((Rel.refl (n := 0) hu hu1 Real.pi).round hA.fl hu hu1)).round hA.fl hu hu1
  have h5 := (((h4.div hu1 h3).round hA.fl hu hu1).div hu1 r).round hA.fl hu hu1
  have e : Ries.cauchyPdf l s E = 1 / Real.pi / (1 + (E - l) / s * ((E - l) / s)) / s := by
    unfold Ries.cauchyPdf
    have : 1 + (E - l) / s * ((E - l) / s) ≠ 0 := by nlinarith [mul_self_nonneg ((E - l) / s)]
    have hp := Real.pi_pos.ne'
    rw [pow_two]
    field_simp
  rw [e]
  exact h5.mono hu hu1 (by omega)

theorem KN.Rel.of_abs {u a b : ℝ} (hu : 0 ≤ u) (hu1 : u < 1) (h : |a - b| ≤ u * |b|) : Rel u 1 a b := by
  rcases eq_or_ne b 0 with rfl | hb
  · have : a = 0 := by simpa using h
    subst this
    exact Rel.refl hu hu1 0
  · have hb' : 0 < |b| := abs_pos.2 hb
    have e : a / b - 1 = (a - b) / b := by field_simp
    have : |a / b - 1| ≤ u := by rw [e, abs_div, div_le_iff₀ hb']; exact h
    obtain ⟨h1, h2⟩ := _root_.abs_le.1 this
    refine ⟨a / b, by rw [pow_one]; linarith, ?_, by field_simp⟩
    rw [pow_one, inv_eq_one_div, le_div_iff₀ (by linarith)]
    nlinarith

theorem RArith.sqrt_rel (hA : A.Accurate u) (hu : 0 ≤ u) (hu1 : u < 1) {a b : ℝ} {n : ℕ} (hb : 0 ≤ b) (h : Rel u n a b) :
    Rel u (n + 1) (A.sqrt a) (Real.sqrt b) := by
  have ha : 0 ≤ a := by
    obtain ⟨θ, l, -, rfl⟩ := h
    exact mul_nonneg hb ((pow_pos (by linarith) n).trans_le l).le
  have := (Rel.of_abs hu hu1 (hA.sqrt a ha)).trans hu1 (h.sqrt hu hu1 hb)
  rwa [add_comm]

theorem RArith.doppler_rel (hA : A.Accurate u) (hu : 0 ≤ u) (hu1 : u < 1) (k : PhysConst) {amu T : ℝ} (ha : 0 < amu) (hT : 0 ≤ T) (E : ℝ) :
    ∃ d, A.dopplerWidth k amu T E = .ok d ∧ Rel u 8 d (Ries.dopplerWidth k amu T E) := by
  have r0 : ∀ x : ℝ, Rel u 0 x x := fun x => Rel.refl hu hu1 x
  have h1 := ((r0 2).mul hu1 (r0 k.kB)).round hA.fl hu hu1
  have h2 := (h1.mul hu1 ((r0 1e-6).round hA.fl hu hu1)).round hA.fl hu hu1
  have h3 := (h2.mul hu1 (r0 T)).round hA.fl hu hu1
  have h4 := ((r0 amu).mul hu1 (r0 k.u)).round hA.fl hu hu1
  have hk := k.u_pos
  have hb := k.kB_pos
  have hne : amu * k.u ≠ 0 := by positivity
  obtain ⟨q, eq, rq⟩ := RArith.div_rel (A := A) hA.fl hu hu1 h3 h4 (q := 2 * k.kB * 1e-6 * T / (amu * k.u)) (by simp [fdiv, hne])
  refine ⟨A.fl (E * A.sqrt q), by simp only [RArith.dopplerWidth, eq, bind, Except.bind], ?_⟩
  have h5 := RArith.sqrt_rel hA hu hu1 (by positivity) rq
  have h6 := ((r0 E).mul hu1 h5).round hA.fl hu hu1
  exact h6.mono hu hu1 (by omega)

theorem RArith.norm_rel (hA : A.Accurate u) (hu : 0 ≤ u) (hu1 : u ≤ 1 / 100) {l s s' : ℝ} {n : ℕ}
    (r : Rel u n s' s) (hn : ((2 * n + 10 : ℕ) : ℝ) * u ≤ 1 / 200) (E : ℝ) :
    ∃ δ, |δ| ≤ 1.01 * ((2 * n + 10 : ℕ) : ℝ) * u * (((E - l) / s) ^ 2 / 2) ∧
      Rel u (n + 10) (A.normPdf l s' E) (Ries.normPdf l s E * Real.exp δ) := by
  have hu1' : u < 1 := by linarith
  have r0 : ∀ x : ℝ, Rel u 0 x x := fun x => Rel.refl hu hu1' x
  have hz := (((r0 (E - l)).round hA.fl hu hu1').div hu1' r).round hA.fl hu hu1'
  have hz2 := (Rel.weaken hu hu1 (hA.sq _)).trans hu1' (hz.pow hu1' 2)
  have hneg : ∀ {n a b}, Rel u n a b → Rel u n (-a) (-b) := by
    rintro n a b ⟨θ, h1, h2, rfl⟩; exact ⟨θ, h1, h2, by ring⟩
  have hx := ((hneg hz2).div hu1' (r0 2)).round hA.fl hu hu1'
  have hx' := hx.mono hu hu1' (m := 2 * n + 10) (by omega)
  set x' := A.fl (-A.sq (A.fl (A.fl (E - l) / s')) / 2) with hx'def
  set x := -((E - l) / s) ^ 2 / 2 with hxdef
  refine ⟨x' - x, ?_, ?_⟩
  · have := hx'.abs_le hu hn
    have e : |x| = ((E - l) / s) ^ 2 / 2 := by
      rw [hxdef, abs_div, abs_neg, abs_of_nonneg (sq_nonneg _)]; norm_num
    rwa [e] at this
  · have h1 := Rel.weaken hu hu1 (hA.exp x')
    have e1 : Real.exp x' = Real.exp x * Real.exp (x' - x) := by rw [← Real.exp_add]; congr 1; ring
    rw [e1] at h1
    have h2 := ((r0 2).mul hu1' ((r0 Real.pi).round hA.fl hu hu1')).round hA.fl hu hu1'
    have h3 := RArith.sqrt_rel hA hu hu1' (by positivity) h2
    have h4 := (((h1.div hu1' h3).round hA.fl hu hu1').div hu1' r).round hA.fl hu hu1'
    have e2 : Ries.normPdf l s E * Real.exp (x' - x) = Real.exp x * Real.exp (x' - x) / Real.sqrt (2 * Real.pi) / s := by
      unfold Ries.normPdf
      rw [← hxdef, div_div, mul_comm s, div_mul_eq_mul_div]
    rw [e2]
    exact h4.mono hu hu1' (by omega)

end Ries
