import Verif.Model.RoundedThermal
import Verif.Lemmas.RoundedReso
import Verif.Lemmas.ElementMass
import Verif.Props.RoundedDarboux
import Verif.Lemmas.Rounded

/-! # Property C137: recoil, Doppler widths, effective temperatures and element masses in floating point -/

namespace Ries

open KN

variable {A : RArith} {u : ℝ}

/-- C137: the resonance energy of a free nucleus has a relative error of at most five roundings. The correction itself is never
lost as long as it exceeds seven roundings of the transition energy. -/
theorem C137_recoil (hA : A.Accurate u) (hu : 0 ≤ u) (hu1 : u ≤ 1 / 1000) (k : PhysConst) {amu dE : ℝ} (ha : 0 < amu) (hE : 0 ≤ dE) :
    ∃ e, A.freeNucleusRecoil k amu dE = .ok e ∧
      |e - freeNucleusRecoil k amu dE| ≤ 1.01 * 5 * u * |freeNucleusRecoil k amu dE| ∧
      (0 < dE → 7 * u * dE ≤ freeNucleusRecoil k amu dE - dE → u ≠ 0 → dE < e) := by
  have hu1' : u < 1 := by linarith
  have r0 : ∀ x : ℝ, Rel u 0 x x := fun x => Rel.refl hu hu1' x
  have h1 := ((r0 2).mul hu1' (r0 amu)).round hA.fl hu hu1'
  have h2 := (h1.mul hu1' (r0 k.u)).round hA.fl hu hu1'
  have hk := k.u_pos
  have hne : 2 * amu * k.u ≠ 0 := by positivity
  obtain ⟨q, eq, rq⟩ := RArith.div_rel (A := A) hA.fl hu hu1' (r0 dE) h2 (q := dE / (2 * amu * k.u)) (by simp [fdiv, hne])
  have h3 := ((Rel.add zero_le_one (by positivity) (Rel.refl hu hu1' 1 (n := 3)) rq)).round hA.fl hu hu1'
  have h4 := ((r0 dE).mul hu1' h3).round hA.fl hu hu1'
  have h5 : Rel u 5 (A.fl (dE * A.fl (1 + q))) (freeNucleusRecoil k amu dE) := h4.mono hu hu1' (by omega)
  have h6 := h5.abs_le hu (by push_cast; linarith)
  refine ⟨A.fl (dE * A.fl (1 + q)), by simp only [RArith.freeNucleusRecoil, eq, bind, Except.bind], by exact_mod_cast h6, ?_⟩
  intro hd h7 hu0
  have hu' : 0 < u := lt_of_le_of_ne hu (Ne.symm hu0)
  set e := A.fl (dE * A.fl (1 + q))
  set X := freeNucleusRecoil k amu dE
  have hX : dE * (1 + 7 * u) ≤ X := by linarith
  have hX0 : 0 < X := lt_of_lt_of_le (by positivity) hX
  rw [abs_of_pos hX0] at h6
  have h8 := (_root_.abs_le.1 h6).1
  push_cast at h8
  have h9 : X * (1 - 5.05 * u) ≤ e := by linarith
  have h10 : dE * (1 + 7 * u) * (1 - 5.05 * u) ≤ e :=
    (mul_le_mul_of_nonneg_right hX (by linarith)).trans h9
  have h11 : 0 < dE * u * (1.95 - 35.35 * u) := mul_pos (mul_pos hd hu') (by linarith)
  nlinarith

/-- C137: Doppler widths and effective temperatures have relative errors of at most eight roundings. -/
theorem C137_doppler (hA : A.Accurate u) (hu : 0 ≤ u) (hu1 : u ≤ 1 / 2000) (k : PhysConst) {amu T E : ℝ} (ha : 0 < amu) (hT : 0 ≤ T) :
    ∃ d, A.dopplerWidth k amu T E = .ok d ∧ |d - dopplerWidth k amu T E| ≤ 1.01 * 8 * u * |dopplerWidth k amu T E| := by
  obtain ⟨d, h, hr⟩ := RArith.doppler_rel hA hu (by linarith) k ha hT E
  exact ⟨d, h, by simpa using hr.abs_le hu (by push_cast; linarith)⟩

theorem RArith.temperature_rel (hA : A.Accurate u) (hu : 0 ≤ u) (hu1 : u < 1) (k : PhysConst) {w w' amu E : ℝ} {n : ℕ} (hE : E ≠ 0)
    (hw : Rel u n w' w) :
    ∃ T, A.effectiveTemperature k w' amu E = .ok T ∧ Rel u (2 * n + 9) T (Ries.effectiveTemperature k w amu E) := by
  have r0 : ∀ x : ℝ, Rel u 0 x x := fun x => Rel.refl hu hu1 x
  have h1 := (hw.mul hu1 hw).round hA.fl hu hu1
  have h2 := (h1.mul hu1 (r0 amu)).round hA.fl hu hu1
  have h3 := (h2.mul hu1 (r0 k.u)).round hA.fl hu hu1
  have g1 := ((r0 E).mul hu1 (r0 E)).round hA.fl hu hu1
  have g2 := (g1.mul hu1 (r0 2)).round hA.fl hu hu1
  have g3 := (g2.mul hu1 (r0 k.kB)).round hA.fl hu hu1
  have g4 := (g3.mul hu1 ((r0 1e-6).round hA.fl hu hu1)).round hA.fl hu hu1
  have hb := k.kB_pos
  have hne : E * E * 2 * k.kB * 1e-6 ≠ 0 := by
    have := mul_self_pos.2 hE
    positivity
  obtain ⟨T, eT, rT⟩ := RArith.div_rel (A := A) hA.fl hu hu1 h3 g4
    (q := w * w * amu * k.u / (E * E * 2 * k.kB * 1e-6)) (by simp only [fdiv, hne, if_false])
  exact ⟨T, by simpa only [RArith.effectiveTemperature] using eT, rT.mono hu hu1 (by omega)⟩

/-- C137: the effective temperature calculated from a Doppler width. -/
theorem C137_temperature (hA : A.Accurate u) (hu : 0 ≤ u) (hu1 : u ≤ 1 / 2000) (k : PhysConst) (w amu : ℝ) {E : ℝ} (hE : E ≠ 0) :
    ∃ T, A.effectiveTemperature k w amu E = .ok T ∧
      |T - effectiveTemperature k w amu E| ≤ 1.01 * 9 * u * |effectiveTemperature k w amu E| := by
  have hu1' : u < 1 := by linarith
  obtain ⟨T, h, hr⟩ := RArith.temperature_rel hA hu hu1' k (amu := amu) hE (Rel.refl hu hu1' w (n := 0))
  exact ⟨T, h, by simpa using hr.abs_le hu (by push_cast; linarith)⟩

/-- C137: converting a temperature to a Doppler width and back returns the temperature up to 25 roundings. -/
theorem C137_roundtrip (hA : A.Accurate u) (hu : 0 ≤ u) (hu1 : u ≤ 1 / 5000) (k : PhysConst) {amu T E : ℝ} (ha : 0 < amu) (hT : 0 ≤ T)
    (hE : E ≠ 0) :
    ∃ d T', A.dopplerWidth k amu T E = .ok d ∧ A.effectiveTemperature k d amu E = .ok T' ∧ |T' - T| ≤ 1.01 * 25 * u * T := by
  have hu1' : u < 1 := by linarith
  obtain ⟨d, h, hr⟩ := RArith.doppler_rel hA hu hu1' k ha hT E
  obtain ⟨T', h', hr'⟩ := RArith.temperature_rel hA hu hu1' k (amu := amu) hE hr
  have e : effectiveTemperature k (dopplerWidth k amu T E) amu E = T := by
    have hk := k.u_pos
    have hb := k.kB_pos
    have hs := Real.mul_self_sqrt (show 0 ≤ 2 * k.kB * 1e-6 * T / (amu * k.u) by positivity)
    unfold effectiveTemperature dopplerWidth
    rw [show E * √(2 * k.kB * 1e-6 * T / (amu * k.u)) * (E * √(2 * k.kB * 1e-6 * T / (amu * k.u))) * amu * k.u =
      √(2 * k.kB * 1e-6 * T / (amu * k.u)) * √(2 * k.kB * 1e-6 * T / (amu * k.u)) * (E * E * amu * k.u) by ring, hs]
    field_simp
  rw [e] at hr'
  have := hr'.abs_le hu (by push_cast; linarith)
  rw [abs_of_nonneg hT] at this
  exact ⟨d, T', h, h', by push_cast at this; linarith⟩

/-! ## Element masses -/

section
variable {κ : Type} [DecidableEq κ] {fl : ℝ → ℝ}

theorem mapM_forall₂ {β γ : Type} {f : β → Except Err γ} : ∀ {xs : List β} {ys : List γ}, xs.mapM f = .ok ys →
    List.Forall₂ (fun x y => f x = .ok y) xs ys
  | [], ys, h => by
    have : ys = [] := by simpa [pure, Except.pure] using h.symm
    rw [this]; exact .nil
  | x :: xs, ys, h => by
    rw [List.mapM_cons] at h
    rcases hx : f x with e | y
    · rw [hx] at h; simp [bind, Except.bind] at h
    · rw [hx] at h
      rcases hs : xs.mapM f with e | zs
      · rw [hs] at h; simp [bind, Except.bind] at h
      · rw [hs] at h
        have : ys = y :: zs := by simpa [bind, Except.bind, pure, Except.pure] using h.symm
        rw [this]
        exact .cons hx (mapM_forall₂ hs)

theorem forall₂_mem {β γ : Type} {R : β → γ → Prop} {xs : List β} {ys : List γ} (h : List.Forall₂ R xs ys) {y : γ} (hy : y ∈ ys) :
    ∃ x ∈ xs, R x y := by
  induction h with
  | nil => simp at hy
  | cons h _ ih =>
    rcases List.mem_cons.1 hy with rfl | hy
    · exact ⟨_, by simp, h⟩
    · obtain ⟨x, hx, hr⟩ := ih hy
      exact ⟨x, by simp [hx], hr⟩

theorem mem_of_dictGet {β : Type} {key : κ} {a : β} : ∀ {d : List (κ × β)}, dictGet key d = .ok a → (key, a) ∈ d
  | [], h => by simp [dictGet] at h
  | p :: d, h => by
    unfold dictGet at h
    by_cases hk : p.1 = key
    · rw [if_pos hk] at h
      have : p.2 = a := by simpa using h
      rw [← hk, ← this]
      exact List.mem_cons_self
    · rw [if_neg hk] at h
      exact List.mem_cons_of_mem _ (mem_of_dictGet h)

theorem dictGet_stored (key : κ) : ∀ d : List (κ × ℝ), dictGet key (storedAbundances fl d) = (dictGet key d).map fl
  | [] => rfl
  | p :: d => by
    have ih := dictGet_stored key d
    unfold storedAbundances at ih ⊢
    rw [List.map_cons]
    unfold dictGet
    by_cases h : p.1 = key
    · simp only [h, if_true]; rfl
    · simp only [h, if_false]; exact ih

/-- what is stored for a term: the rounded product of the rounded numbers -/
theorem amuTermR_stored (d : List (κ × ℝ)) (p : κ × Option ℝ) :
    amuTermR fl (storedAbundances fl d) (p.1, p.2.map fl) =
      (do let a ← dictGet p.1 d
          match p.2 with
          | none => .error .typeError
          | some m => .ok (fl (fl m * fl a))) := by
  unfold amuTermR
  rw [dictGet_stored]
  cases dictGet p.1 d <;> cases p.2 <;> rfl

theorem term_err {m a : ℝ} (hu : 0 ≤ u) (hfl : Rounding u fl) : |fl (fl m * fl a) - m * a| ≤ ((1 + u) ^ 3 - 1) * |m * a| := by
  have h1 : Near u 0 m m |m| := Near.refl u m
  have h2 : Near u 0 a a |a| := Near.refl u a
  have := (Near.mul hu (h1.round hu hfl) (h2.round hu hfl)).round hu hfl
  rw [abs_mul]
  exact this.1

/-- The terms of the rounded calculation belong to those of the exact one, one by one, with the same exceptions. -/
theorem terms_stored (hu : 0 ≤ u) (hfl : Rounding u fl) (d : List (κ × ℝ)) : ∀ iso : List (κ × Option ℝ),
    match iso.mapM (amuTerm d) with
    | .error e => (storedIsotopes fl iso).mapM (amuTermR fl (storedAbundances fl d)) = .error e
    | .ok ws => ∃ vs, (storedIsotopes fl iso).mapM (amuTermR fl (storedAbundances fl d)) = .ok vs ∧
        List.Forall₂ (fun v w => |v - w| ≤ ((1 + u) ^ 3 - 1) * |w|) vs ws
  | [] => ⟨[], rfl, .nil⟩
  | p :: iso => by
    have ih := terms_stored hu hfl d iso
    unfold storedIsotopes at ih ⊢
    rw [List.map_cons, List.mapM_cons, List.mapM_cons, amuTermR_stored]
    unfold amuTerm
    rcases dictGet p.1 d with e | a
    · simp [bind, Except.bind]
    · rcases p with ⟨key, _ | m⟩
      · simp [bind, Except.bind]
      · simp only [bind, Except.bind, pure, Except.pure]
        rcases h : List.mapM (amuTerm d) iso with e | ws
        · rw [h] at ih
          have h' : List.mapM (fun p : κ × Option ℝ => amuTerm d p) iso = .error e := h
          unfold amuTerm at h'
          simp only [bind, Except.bind] at h'
          rw [h']
          simp only at ih ⊢
          rw [ih]
        · rw [h] at ih
          have h' : List.mapM (fun p : κ × Option ℝ => amuTerm d p) iso = .ok ws := h
          unfold amuTerm at h'
          simp only [bind, Except.bind] at h'
          rw [h']
          obtain ⟨vs, hv, hf⟩ := ih
          simp only
          rw [hv]
          exact ⟨_, rfl, .cons (term_err hu hfl) hf⟩

theorem forall₂_getD {vs ws : List ℝ} {g : ℝ} (h : List.Forall₂ (fun v w => |v - w| ≤ g * |w|) vs ws) (i : ℕ) :
    |vs.getD i 0 - ws.getD i 0| ≤ g * |ws.getD i 0| := by
  induction h generalizing i with
  | nil => simp
  | cons h _ ih =>
    cases i with
    | zero => simpa using h
    | succ i => simpa using ih i

theorem sum_getD (ws : List ℝ) (f : ℝ → ℝ) : ∑ i ∈ Finset.range ws.length, f (ws.getD i 0) = (ws.map f).sum := by
  induction ws with
  | nil => simp
  | cons w ws ih =>
    rw [List.length_cons, Finset.sum_range_succ', List.map_cons, List.sum_cons, add_comm]
    simpa using ih

/-- C137: the mass of an element, calculated from stored (rounded) masses and abundances, with rounded products and additions in any
order: the same exceptions as the exact calculation, and otherwise a relative error of at most three roundings plus one for
each level of the summation. -/
theorem C137_element_mass (hu : 0 ≤ u) (hfl : Rounding u fl) {t : SumTree} (d : List (κ × ℝ)) (iso : List (κ × Option ℝ))
    (ht : iso = [] ∨ t.Covers iso.length) (hd : ∀ p ∈ d, 0 ≤ p.2) (hi : ∀ p ∈ iso, ∀ m, p.2 = some m → 0 ≤ m) :
    match amuFromComposition d iso with
    | .error e => amuFromCompositionR fl t (storedAbundances fl d) (storedIsotopes fl iso) = .error e
    | .ok m => ∃ m', amuFromCompositionR fl t (storedAbundances fl d) (storedIsotopes fl iso) = .ok m' ∧
        |m' - m| ≤ ((1 + u) ^ (t.depth + 3) - 1) * m := by
  have key := terms_stored hu hfl d iso
  unfold amuFromComposition amuFromCompositionR
  rcases h : iso.mapM (amuTerm d) with e | ws
  · rw [h] at key
    simp only at key
    rw [key]
    rfl
  · rw [h] at key
    obtain ⟨vs, hv, hf⟩ := key
    rw [hv]
    have hall := mapM_forall₂ h
    have hlen : ws.length = iso.length := hall.length_eq.symm
    have hnn : ∀ w ∈ ws, 0 ≤ w := by
      intro w hw
      obtain ⟨p, hp, hpw⟩ := forall₂_mem hall hw
      unfold amuTerm at hpw
      rcases ha : dictGet p.1 d with e | a
      · rw [ha] at hpw; simp [bind, Except.bind] at hpw
      · rw [ha] at hpw
        rcases hm : p.2 with _ | m
        · rw [hm] at hpw; simp [bind, Except.bind] at hpw
        · rw [hm] at hpw
          have : w = m * a := by simpa [bind, Except.bind] using hpw.symm
          rw [this]
          exact mul_nonneg (hi p hp m hm) (hd _ (mem_of_dictGet ha))
    simp only [bind, Except.bind]
    cases hf with
    | nil => exact ⟨0, rfl, by simp⟩
    | @cons v w vs ws h1 h2 =>
      refine ⟨_, rfl, ?_⟩
      have ht' : t.Covers (w :: ws).length := by
        rcases ht with rfl | ht
        · simp at hlen
        · rwa [hlen]
      have hf : List.Forall₂ (fun v w => |v - w| ≤ ((1 + u) ^ 3 - 1) * |w|) (v :: vs) (w :: ws) := .cons h1 h2
      have hp := one_le_pow' hu 3
      have := (SumTree.eval_err hu hfl (v := fun i => (v :: vs).getD i 0) (w := fun i => (w :: ws).getD i 0)
        (M := fun i => |(w :: ws).getD i 0|) (g := (1 + u) ^ 3) (fun i => le_rfl) (fun i => forall₂_getD hf i) hp t).1
      rw [ht'.sum, ht'.sum, sum_getD _ (fun x => x), sum_getD _ (fun x => |x|), List.map_id', ← pow_add, add_comm 3] at this
      have habs : ((w :: ws).map fun x => |x|) = w :: ws := by
        conv_rhs => rw [← List.map_id (w :: ws)]
        exact List.map_congr_left fun x hx => abs_of_nonneg (hnn x hx)
      rwa [habs] at this

end

/-- Natural carbon (two isotopes, masses and abundances as tabulated), correctly rounded. -/
example : amuFromComposition [("12C", (0.9893 : ℝ)), ("13C", 0.0107)] [("12C", some 12), ("13C", some 13.00335483507)] =
      .ok (12 * 0.9893 + (13.00335483507 * 0.0107 + 0)) ∧
    (SumTree.node (.leaf 0) (.leaf 1)).Covers 2 ∧ (SumTree.node (.leaf 0) (.leaf 1)).depth = 1 ∧ Rounding (1 / 2 ^ 53) KN.rn :=
  ⟨by simp [amuFromComposition, amuTerm, dictGet, bind, Except.bind, pure, Except.pure], List.Perm.refl _, rfl, KN.rn_rounding⟩

end Ries
