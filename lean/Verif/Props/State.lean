import Verif.Lemmas.State
import Verif.Lemmas.Resonance
import Verif.Spec.Examples

/-! # Properties C21 - C24: widths, branching, strength and construction -/

namespace Ries

/-! ## C22 -/

/-- C22: the width is the sum of the partial widths (a dictionary has each key once). -/
theorem C22_width_sum (Jpi : String) (twoJ parity : ℤ) (exc : ℝ) (pw : List (String × ℝ)) (hn : (pw.map Prod.fst).Nodup) :
    (state Jpi twoJ parity exc pw).width = .ok (pw.map Prod.snd).sum :=
  width_eq rfl hn

/-- C22: it does not depend on the order of the dictionary. -/
theorem C22_width_perm (Jpi : String) (twoJ parity : ℤ) (exc : ℝ) {pw pw' : List (String × ℝ)}
    (hn : (pw.map Prod.fst).Nodup) (hp : pw.Perm pw') :
    (state Jpi twoJ parity exc pw).width = (state Jpi twoJ parity exc pw').width := by
  rw [C22_width_sum _ _ _ _ _ hn, C22_width_sum _ _ _ _ _ (((hp.map Prod.fst).nodup_iff).1 hn), (hp.map Prod.snd).sum_eq]

/-- C22: it is at least every single partial width when none is negative. -/
theorem C22_width_ge (Jpi : String) (twoJ parity : ℤ) (exc : ℝ) (pw : List (String × ℝ)) (hn : (pw.map Prod.fst).Nodup)
    (h0 : ∀ kv ∈ pw, 0 ≤ kv.2) : ∃ w, (state Jpi twoJ parity exc pw).width = .ok w ∧ 0 ≤ w ∧ ∀ kv ∈ pw, kv.2 ≤ w := by
  refine ⟨_, C22_width_sum _ _ _ _ _ hn, List.sum_nonneg ?_, ?_⟩
  · intro x hx
    obtain ⟨kv, hkv, rfl⟩ := List.mem_map.1 hx
    exact h0 kv hkv
  · intro kv hkv
    refine List.single_le_sum ?_ _ (List.mem_map.2 ⟨kv, hkv, rfl⟩)
    intro x hx
    obtain ⟨kv, hkv, rfl⟩ := List.mem_map.1 hx
    exact h0 kv hkv

/-- C22: a ground state has excitation energy 0 and no width attribute. -/
theorem C22_ground (Jpi : String) (twoJ parity : ℤ) :
    (groundState Jpi twoJ parity).exc = 0 ∧ (groundState Jpi twoJ parity).width = .error .attributeError := by
  simp [groundState, Level.width, Level.partialWidths, bind, Except.bind]

example : (([("3/2^-_1", 1), ("5/2^-_1", 3)] : List (String × ℝ)).map Prod.fst).Nodup := by decide
example : (state "1/2^-_1" 1 (-1) 2 [("3/2^-_1", 1), ("5/2^-_1", 3)]).width = .ok 4 := exExcited_width

/-! ## C21 -/

theorem sigma_pdf {r : Reso} {σ : ℝ → ℝ} (h : r.HasSigma σ) (E : ℝ) :
    ∃ x, r.dist.pdf r.params E = .ok (.fin x) ∧ σ E = r.ics * x := by
  have := h E
  simp only [Reso.call, bind, Except.bind, if_true] at this
  cases hp : r.dist.pdf r.params E with
  | error e => simp [hp] at this
  | ok p =>
    simp only [hp, Except.ok.injEq] at this
    cases p with
    | fin x =>
      simp only [Fl.smul, Fl.fin.injEq] at this
      exact ⟨x, rfl, this.symm⟩
    | nan => simp [Fl.smul] at this
    | pinf => simp only [Fl.smul] at this; split_ifs at this
    | ninf => simp only [Fl.smul] at this; split_ifs at this

/-- The unrestricted construction determines the one with a final state. -/
theorem mkResonance_final {k : PhysConst} {init inter : Level} {R : ℝ → ℝ} {r : Reso}
    (h : mkResonance k init inter none R = .ok r) {pw : List (String × ℝ)} (hpw : inter.widths = some pw) {w g : ℝ}
    (hw : inter.width = .ok w) (hw0 : w ≠ 0) (f : Level) (hg : lookup f.Jpi pw = .ok g) :
    mkResonance k init inter (some f) R = .ok { r with br := g / w, ics := r.ics * (g / w) } := by
  obtain ⟨her, her0, hc, hJ, hst, hbr, ⟨pw', g0, hpw', hg0, hics⟩, hd, hp⟩ := mkResonance_inv h
  rw [hpw] at hpw'; cases hpw'
  simp only [branchingRatio, Except.ok.injEq] at hbr
  rw [her] at her0
  have hR : R (inter.exc - init.exc) ^ 2 ≠ 0 := pow_ne_zero 2 her0
  simp only [mkResonance, statFactor, fdiv, branchingRatio, integratedCS, Level.partialWidths, hpw, hJ, hg, hw, hw0,
    hg0, hR, bind, Except.bind, if_false]
  congr 1
  cases r
  simp only at *
  subst her hc hst hbr hd hp hics
  simp

/-- C21: restricting a resonance of any class to a final state multiplies the cross section by Γ_f/Γ, which lies in [0,1]. -/
theorem C21_channel (s : Shape) {k : PhysConst} {init inter : Level} {r : Reso} (h : s.build k init inter none = .ok r)
    {pw : List (String × ℝ)} (hpw : inter.widths = some pw) (hn : (pw.map Prod.fst).Nodup) (h0 : ∀ kv ∈ pw, 0 ≤ kv.2)
    (hw : 0 < (pw.map Prod.snd).sum) (f : Level) (g : ℝ) (hg : (f.Jpi, g) ∈ pw) :
    ∃ rf, s.build k init inter (some f) = .ok rf ∧ rf.br = g / (pw.map Prod.snd).sum ∧ 0 ≤ rf.br ∧ rf.br ≤ 1 ∧
      rf.er = r.er ∧ ∀ σ, r.HasSigma σ → rf.HasSigma fun E => rf.br * σ E := by
  obtain ⟨r0, d, ps, hr0, hd, rfl⟩ := build_inv h
  have hf := mkResonance_final hr0 hpw (width_eq hpw hn) hw.ne' f (lookup_of_mem hn hg)
  have hle : g ≤ (pw.map Prod.snd).sum := by
    refine List.single_le_sum ?_ _ (List.mem_map.2 ⟨_, hg, rfl⟩)
    intro x hx
    obtain ⟨kv, hkv, rfl⟩ := List.mem_map.1 hx
    exact h0 kv hkv
  refine ⟨{ r0 with br := g / (pw.map Prod.snd).sum, ics := r0.ics * (g / (pw.map Prod.snd).sum), dist := d, params := ps },
    ?_, rfl, div_nonneg (h0 _ hg) hw.le, (div_le_one hw).2 hle, rfl, ?_⟩
  · rw [build_eq, hf]
    simp only [Except.bind]
    rw [hd]
  · intro σ hσ E
    obtain ⟨x, hx, hσx⟩ := sigma_pdf hσ E
    simp only at hx hσx
    simp [Reso.call, bind, Except.bind, hx, Fl.smul, hσx]
    ring

theorem channels_sum {pw : List (String × ℝ)} :
    ∀ (fs : List Level), fs.map (·.Jpi) = pw.map Prod.fst → ∀ P : Level → ℝ → Prop, (∀ f g, (f.Jpi, g) ∈ pw → P f g) →
      List.Forall₂ P fs (pw.map Prod.snd) := by
  have key : ∀ (l : List (String × ℝ)) (fs : List Level), (∀ kv ∈ l, kv ∈ pw) → fs.map (·.Jpi) = l.map Prod.fst →
      ∀ P : Level → ℝ → Prop, (∀ f g, (f.Jpi, g) ∈ pw → P f g) → List.Forall₂ P fs (l.map Prod.snd) := by
    intro l
    induction l with
    | nil => intro fs _ h P _; simp at h; subst h; simp
    | cons kv l ih =>
      intro fs hsub h P hP
      cases fs with
      | nil => simp at h
      | cons f fs =>
        simp only [List.map_cons, List.cons.injEq] at h
        refine List.Forall₂.cons (hP f kv.2 ?_) (ih fs (fun kv' h' => hsub kv' (by simp [h'])) h.2 P hP)
        rw [h.1]
        exact hsub kv (by simp)
  exact fun fs h P hP => key pw fs (fun _ h => h) h P hP

/-- C21: summed over all decay channels, the restricted cross sections give back the unrestricted one at every energy. -/
theorem C21_channels_sum (s : Shape) {k : PhysConst} {init inter : Level} {r : Reso} (h : s.build k init inter none = .ok r)
    {pw : List (String × ℝ)} (hpw : inter.widths = some pw) (hn : (pw.map Prod.fst).Nodup) (h0 : ∀ kv ∈ pw, 0 ≤ kv.2)
    (hw : 0 < (pw.map Prod.snd).sum) (fs : List Level) (hfs : fs.map (·.Jpi) = pw.map Prod.fst) :
    ∃ rs, fs.mapM (fun f => s.build k init inter (some f)) = .ok rs ∧ ∀ σ, r.HasSigma σ →
      ∃ σs : List (ℝ → ℝ), List.Forall₂ Reso.HasSigma rs σs ∧ ∀ E, (σs.map (· E)).sum = σ E := by
  set W := (pw.map Prod.snd).sum with hW
  have hall := channels_sum fs hfs (fun f g => ∃ rf, s.build k init inter (some f) = .ok rf ∧
      ∀ σ, r.HasSigma σ → rf.HasSigma fun E => g / W * σ E) (by
    intro f g hg
    obtain ⟨rf, h1, h2, -, -, -, h3⟩ := C21_channel s h hpw hn h0 hw f g hg
    refine ⟨rf, h1, fun σ hσ => ?_⟩
    have := h3 σ hσ
    rw [h2] at this
    exact this)
  have gen : ∀ (fs : List Level) (gs : List ℝ), List.Forall₂ (fun f g => ∃ rf, s.build k init inter (some f) = .ok rf ∧
      ∀ σ, r.HasSigma σ → rf.HasSigma fun E => g / W * σ E) fs gs →
      ∃ rs, fs.mapM (fun f => s.build k init inter (some f)) = .ok rs ∧ ∀ σ, r.HasSigma σ →
        List.Forall₂ Reso.HasSigma rs (gs.map fun g E => g / W * σ E) := by
    intro fs gs hf
    induction hf with
    | nil => exact ⟨[], rfl, fun σ _ => by simp⟩
    | cons hfg _ ih =>
      obtain ⟨rf, h1, h2⟩ := hfg
      obtain ⟨rs, h3, h4⟩ := ih
      refine ⟨rf :: rs, by simp [List.mapM_cons, h1, h3, bind, Except.bind, pure, Except.pure], fun σ hσ => ?_⟩
      exact List.Forall₂.cons (h2 σ hσ) (h4 σ hσ)
  obtain ⟨rs, h1, h2⟩ := gen fs _ hall
  refine ⟨rs, h1, fun σ hσ => ⟨_, h2 σ hσ, fun E => ?_⟩⟩
  have e : ∀ l : List ℝ, ((l.map fun g E => g / W * σ E).map fun f : ℝ → ℝ => f E).sum = l.sum / W * σ E := by
    intro l
    induction l with
    | nil => simp
    | cons a l ih => simp only [List.map_cons, List.sum_cons, ih]; ring
  rw [e, ← hW, div_self hw.ne', one_mul]

/-- the two-channel example state satisfies the hypotheses -/
example : ∃ r, (Shape.box noRecoil).build exConst exGround exExcited none = .ok r ∧
    exExcited.widths = some [("3/2^-_1", 1), ("5/2^-_1", 3)] ∧
    (([("3/2^-_1", 1), ("5/2^-_1", 3)] : List (String × ℝ)).map Prod.fst).Nodup ∧
    (0 : ℝ) < (([("3/2^-_1", 1), ("5/2^-_1", 3)] : List (String × ℝ)).map Prod.snd).sum := by
  obtain ⟨r, h, -⟩ := exResonance
  exact ⟨r, h, rfl, by decide, by norm_num⟩

/-! ## C23 -/

/-- C23: the closed form, for every class. -/
theorem C23_formula (s : Shape) {k : PhysConst} {init inter : Level} {final : Option Level} {r : Reso}
    (h : s.build k init inter final = .ok r) :
    ∃ pw g0, inter.widths = some pw ∧ (init.Jpi, g0) ∈ pw ∧
      r.ics = (Real.pi * k.hbarc / r.er) ^ 2 * (((inter.twoJ : ℝ) + 1) / ((init.twoJ : ℝ) + 1)) * g0 * r.br ∧
      (final = none → r.br = 1) ∧
      (∀ f, final = some f → ∃ gf w, (f.Jpi, gf) ∈ pw ∧ inter.width = .ok w ∧ r.br = gf / w) := by
  obtain ⟨r0, d, ps, hr0, hd, rfl⟩ := build_inv h
  obtain ⟨her, her0, hc, hJ, hst, hbr, ⟨pw, g0, hpw, hg0, hics⟩, -, -⟩ := mkResonance_inv hr0
  refine ⟨pw, g0, hpw, lookup_mem hg0, ?_, ?_, ?_⟩
  · simp only
    rw [hics, hc, hst, div_pow]
  · rintro rfl
    simp only [branchingRatio, Except.ok.injEq] at hbr
    exact hbr.symm
  · rintro f rfl
    simp only [branchingRatio, Level.partialWidths, hpw, bind, Except.bind] at hbr
    cases hl : lookup f.Jpi pw with
    | error e => simp [hl] at hbr
    | ok gf =>
      cases hw : inter.width with
      | error e => simp [hl, hw] at hbr
      | ok w =>
        simp only [hl, hw, fdiv] at hbr
        split_ifs at hbr with h0
        simp only [Except.ok.injEq] at hbr
        exact ⟨gf, w, lookup_mem hl, rfl, hbr.symm⟩

/-- C23: positive widths and proper spins give a positive strength. -/
theorem C23_pos (s : Shape) {k : PhysConst} {init inter : Level} {final : Option Level} {r : Reso}
    (h : s.build k init inter final = .ok r) (hJ0 : 0 ≤ init.twoJ) (hJ2 : 0 ≤ inter.twoJ)
    (hpos : ∀ pw, inter.widths = some pw → (pw.map Prod.fst).Nodup ∧ ∀ kv ∈ pw, 0 < kv.2) : 0 < r.ics := by
  obtain ⟨pw, g0, hpw, hg0, hics, hn, hf⟩ := C23_formula s h
  obtain ⟨hnd, hp⟩ := hpos pw hpw
  have her : r.er ≠ 0 := by
    obtain ⟨r0, d, ps, hr0, hd, rfl⟩ := build_inv h
    exact (mkResonance_inv hr0).2.1
  have hbr : 0 < r.br := by
    cases final with
    | none => rw [hn rfl]; exact one_pos
    | some f =>
      obtain ⟨gf, w, hgf, hw, hb⟩ := hf f rfl
      rw [hb]
      refine div_pos (hp _ hgf) ?_
      rw [width_eq hpw hnd] at hw
      simp only [Except.ok.injEq] at hw
      rw [← hw]
      refine (hp _ hgf).trans_le (List.single_le_sum ?_ _ (List.mem_map.2 ⟨_, hgf, rfl⟩))
      intro x hx
      obtain ⟨kv, hkv, rfl⟩ := List.mem_map.1 hx
      exact (hp kv hkv).le
  have h1 : (0 : ℝ) < (inter.twoJ : ℝ) + 1 := by
    have : (0 : ℝ) ≤ inter.twoJ := by exact_mod_cast hJ2
    linarith
  have h2 : (0 : ℝ) < (init.twoJ : ℝ) + 1 := by
    have : (0 : ℝ) ≤ init.twoJ := by exact_mod_cast hJ0
    linarith
  have h3 : 0 < (Real.pi * k.hbarc / r.er) ^ 2 := by
    have := Real.pi_pos; have := k.hbarc_pos
    positivity
  have h4 := hp _ hg0
  rw [hics]
  positivity

/-- C23: the strength scales like 1/E_r² and linearly with the width to the initial state (no final state). -/
theorem C23_scaling (s s' : Shape) {k : PhysConst} {init inter init' inter' : Level} {r r' : Reso}
    (h : s.build k init inter none = .ok r) (h' : s'.build k init' inter' none = .ok r') {pw pw' : List (String × ℝ)} {g0 g0' : ℝ}
    (hpw : inter.widths = some pw) (hpw' : inter'.widths = some pw') (hn : (pw.map Prod.fst).Nodup) (hn' : (pw'.map Prod.fst).Nodup)
    (hg : (init.Jpi, g0) ∈ pw) (hg' : (init'.Jpi, g0') ∈ pw')
    (hJ : init.twoJ = init'.twoJ ∧ inter.twoJ = inter'.twoJ) :
    r.ics * g0' * r.er ^ 2 = r'.ics * g0 * r'.er ^ 2 := by
  have uniq : ∀ (pw : List (String × ℝ)) (key : String) (a b : ℝ), (pw.map Prod.fst).Nodup → (key, a) ∈ pw → (key, b) ∈ pw → a = b := by
    intro pw key a b hn ha hb
    have h1 := lookup_of_mem hn ha
    rw [lookup_of_mem hn hb] at h1
    simpa using h1.symm
  obtain ⟨q, x, hq, hx, hi, hb, -⟩ := C23_formula s h
  obtain ⟨q', x', hq', hx', hi', hb', -⟩ := C23_formula s' h'
  rw [hpw] at hq; cases hq
  rw [hpw'] at hq'; cases hq'
  rw [uniq pw _ _ _ hn hx hg] at hi
  rw [uniq pw' _ _ _ hn' hx' hg'] at hi'
  have her : r.er ≠ 0 := by
    obtain ⟨r0, d, ps, hr0, hd, rfl⟩ := build_inv h
    exact (mkResonance_inv hr0).2.1
  have her' : r'.er ≠ 0 := by
    obtain ⟨r0, d, ps, hr0, hd, rfl⟩ := build_inv h'
    exact (mkResonance_inv hr0).2.1
  rw [hi, hi', hb rfl, hb' rfl, hJ.1, hJ.2, div_pow, div_pow]
  field_simp

/-! ## C24 -/

/-- the initial state or the given final state has no partial width in the intermediate state -/
def MissingKey (init inter : Level) (final : Option Level) : Prop :=
  ∃ pw, inter.widths = some pw ∧ (init.Jpi ∉ pw.map Prod.fst ∨ ∃ f, final = some f ∧ f.Jpi ∉ pw.map Prod.fst)

/-- the energy difference is zero after recoil correction, or the width is zero and divided by, or the spin of the
initial state is −1/2, or a mass of zero is given to a Doppler-broadened shape -/
def ZeroDivisor (s : Shape) (init inter : Level) (final : Option Level) : Prop :=
  s.recoil (inter.exc - init.exc) = 0 ∨ (final ≠ none ∧ inter.width = .ok 0) ∨ init.twoJ = -1 ∨
    match s with
    | .gauss amu _ | .pseudoVoigt amu _ | .voigt amu _ => amu = 0
    | _ => False

theorem twoJ_ne {init : Level} : (init.twoJ : ℝ) + 1 = 0 ↔ init.twoJ = -1 := by
  constructor
  · intro h
    have : ((init.twoJ + 1 : ℤ) : ℝ) = 0 := by push_cast; exact h
    have : init.twoJ + 1 = 0 := by exact_mod_cast this
    omega
  · intro h; rw [h]; norm_num

/-- C24: a construction succeeds exactly when no defect is present; each error is of one of three classes and each
class points to a defect of its kind. (So with defects of one kind only, exactly that error is raised.) -/
theorem C24_construction (s : Shape) (k : PhysConst) (init inter : Level) (final : Option Level) :
    ((∃ r, s.build k init inter final = .ok r) ↔
      inter.widths ≠ none ∧ ¬ MissingKey init inter final ∧ ¬ ZeroDivisor s init inter final) ∧
    ∀ e, s.build k init inter final = .error e →
      (e = .attributeError ∧ inter.widths = none) ∨ (e = .keyError ∧ MissingKey init inter final) ∨
      (e = .zeroDivision ∧ ZeroDivisor s init inter final) := by
  -- the distribution part can only fail on amu = 0 once the state has partial widths
  have hdist : ∀ pw er, inter.widths = some pw →
      (∃ dp, s.distOf k inter er = .ok dp ∧ ¬ (match s with
        | .gauss amu _ | .pseudoVoigt amu _ | .voigt amu _ => amu = 0
        | _ => False)) ∨ (s.distOf k inter er = .error .zeroDivision ∧ (match s with
        | .gauss amu _ | .pseudoVoigt amu _ | .voigt amu _ => amu = 0
        | _ => False)) := by
    intro pw er hpw
    obtain ⟨w, hw⟩ := width_ok hpw
    have hu := k.u_pos.ne'
    cases s with
    | box R => left; exact ⟨_, rfl, id⟩
    | breitWigner => left; exact ⟨(cauchyDist, [er, 0.5 * w]), by simp [Shape.distOf, hw, bind, Except.bind], id⟩
    | gauss amu T =>
      by_cases ha : amu = 0
      · right; simp [Shape.distOf, getDopplerWidth, ha, bind, Except.bind]
      · left; simp [Shape.distOf, getDopplerWidth, ha, hu, bind, Except.bind]
    | pseudoVoigt amu T =>
      by_cases ha : amu = 0
      · right; simp [Shape.distOf, getDopplerWidth, ha, hw, bind, Except.bind]
      · left; simp [Shape.distOf, getDopplerWidth, ha, hu, hw, bind, Except.bind]
    | voigt amu T =>
      by_cases ha : amu = 0
      · right; simp [Shape.distOf, getDopplerWidth, ha, hw, bind, Except.bind]
      · left; simp [Shape.distOf, getDopplerWidth, ha, hu, hw, bind, Except.bind]
  -- case analysis in program order
  have main : (∃ r, s.build k init inter final = .ok r ∧ inter.widths ≠ none ∧ ¬ MissingKey init inter final ∧
        ¬ ZeroDivisor s init inter final) ∨
      (s.build k init inter final = .error .attributeError ∧ inter.widths = none) ∨
      (s.build k init inter final = .error .keyError ∧ MissingKey init inter final) ∨
      (s.build k init inter final = .error .zeroDivision ∧ ZeroDivisor s init inter final) := by
    rw [build_eq]
    by_cases hJ : init.twoJ = -1
    · right; right; right
      refine ⟨?_, Or.inr (Or.inr (Or.inl hJ))⟩
      simp [mkResonance, statFactor, fdiv, twoJ_ne.2 hJ, bind, Except.bind]
    have hJ' : ¬ (init.twoJ : ℝ) + 1 = 0 := fun h => hJ (twoJ_ne.1 h)
    cases hpw : inter.widths with
    | none =>
      cases final with
      | some f =>
        right; left
        simp [mkResonance, statFactor, fdiv, hJ', branchingRatio, Level.partialWidths, hpw, bind, Except.bind]
      | none =>
        by_cases hE : s.recoil (inter.exc - init.exc) = 0
        · right; right; right
          refine ⟨?_, Or.inl hE⟩
          simp [mkResonance, statFactor, fdiv, hJ', branchingRatio, integratedCS, hE, bind, Except.bind]
        · right; left
          simp [mkResonance, statFactor, fdiv, hJ', branchingRatio, integratedCS, hE, Level.partialWidths, hpw, bind,
            Except.bind]
    | some pw =>
      obtain ⟨w, hw⟩ := width_ok hpw
      -- the branching ratio
      have hbr : (∃ b, branchingRatio inter final = .ok b ∧ (∀ f, final = some f → f.Jpi ∈ pw.map Prod.fst) ∧
            ¬ (final ≠ none ∧ inter.width = .ok 0)) ∨
          (branchingRatio inter final = .error .keyError ∧ MissingKey init inter final) ∨
          (branchingRatio inter final = .error .zeroDivision ∧ final ≠ none ∧ inter.width = .ok 0) := by
        cases final with
        | none => left; exact ⟨1, rfl, by simp, by simp⟩
        | some f =>
          rcases lookup_cases f.Jpi pw with ⟨hin, g, hg⟩ | ⟨hno, hg⟩
          · by_cases hw0 : w = 0
            · right; right
              simp [branchingRatio, Level.partialWidths, hpw, hg, hw, hw0, fdiv, bind, Except.bind]
            · left
              refine ⟨g / w, ?_, ?_, ?_⟩
              · simp [branchingRatio, Level.partialWidths, hpw, hg, hw, hw0, fdiv, bind, Except.bind]
              · rintro f' h'; cases h'; exact hin
              · simp [hw, hw0]
          · right; left
            refine ⟨?_, pw, hpw, Or.inr ⟨f, rfl, hno⟩⟩
            simp [branchingRatio, Level.partialWidths, hpw, hg, bind, Except.bind]
      rcases hbr with ⟨b, hb, hfin, hwz⟩ | ⟨hb, hm⟩ | ⟨hb, hz⟩
      · by_cases hE : s.recoil (inter.exc - init.exc) = 0
        · right; right; right
          refine ⟨?_, Or.inl hE⟩
          simp [mkResonance, statFactor, fdiv, hJ', hb, integratedCS, hE, bind, Except.bind]
        · rcases lookup_cases init.Jpi pw with ⟨hin, g0, hg0⟩ | ⟨hno, hg0⟩
          · obtain ⟨r0, hr0⟩ : ∃ r0, mkResonance k init inter final s.recoil = .ok r0 := by
              simp [mkResonance, statFactor, fdiv, hJ', hb, integratedCS, hE, Level.partialWidths, hpw, hg0, bind, Except.bind]
            rcases hdist pw r0.er hpw with ⟨dp, hdp, hne⟩ | ⟨hdp, hz⟩
            · left
              refine ⟨{ r0 with dist := dp.1, params := dp.2 }, by simp [hr0, hdp, Except.bind], by simp, ?_, ?_⟩
              · rintro ⟨pw', hpw', hmk⟩
                rw [hpw] at hpw'; cases hpw'
                rcases hmk with hmk | ⟨f, hf, hmk⟩
                · exact hmk hin
                · exact hmk (hfin f hf)
              · rintro (h | h | h | h)
                · exact hE h
                · exact hwz h
                · exact hJ h
                · exact hne h
            · right; right; right
              exact ⟨by simp [hr0, hdp, Except.bind], Or.inr (Or.inr (Or.inr hz))⟩
          · right; right; left
            refine ⟨?_, pw, hpw, Or.inl hno⟩
            simp [mkResonance, statFactor, fdiv, hJ', hb, integratedCS, hE, Level.partialWidths, hpw, hg0, bind, Except.bind]
      · right; right; left
        refine ⟨?_, hm⟩
        simp [mkResonance, statFactor, fdiv, hJ', hb, bind, Except.bind]
      · right; right; right
        refine ⟨?_, Or.inr (Or.inl hz)⟩
        simp [mkResonance, statFactor, fdiv, hJ', hb, bind, Except.bind]
  rcases main with ⟨r, hr, h1, h2, h3⟩ | ⟨h, hd⟩ | ⟨h, hd⟩ | ⟨h, hd⟩
  · refine ⟨⟨fun _ => ⟨h1, h2, h3⟩, fun _ => ⟨r, hr⟩⟩, ?_⟩
    intro e he; rw [hr] at he; cases he
  · refine ⟨⟨fun ⟨r, hr⟩ => (by rw [h] at hr; cases hr), fun hh => absurd hd hh.1⟩, ?_⟩
    intro e he; rw [h] at he; cases he; exact Or.inl ⟨rfl, hd⟩
  · refine ⟨⟨fun ⟨r, hr⟩ => (by rw [h] at hr; cases hr), fun hh => absurd hd hh.2.1⟩, ?_⟩
    intro e he; rw [h] at he; cases he; exact Or.inr (Or.inl ⟨rfl, hd⟩)
  · refine ⟨⟨fun ⟨r, hr⟩ => (by rw [h] at hr; cases hr), fun hh => absurd hd hh.2.2⟩, ?_⟩
    intro e he; rw [h] at he; cases he; exact Or.inr (Or.inr ⟨rfl, hd⟩)

/-- a KeyError case and a ZeroDivisionError case -/
example : MissingKey exExcited exExcited none := ⟨_, rfl, Or.inl (by decide)⟩
example : ZeroDivisor .breitWigner exExcited exExcited none := Or.inl (by simp [Shape.recoil, noRecoil])

end Ries
