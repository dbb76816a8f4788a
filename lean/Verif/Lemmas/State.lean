import Verif.Model.PseudoVoigt
import Mathlib.Algebra.BigOperators.Group.List.Lemmas
import Mathlib.Algebra.Order.BigOperators.Group.List

/-! # Lemmas on states and constructors -/

namespace Ries

theorem lookup_mem {key : String} {pw : List (String × ℝ)} {v : ℝ} (h : lookup key pw = .ok v) : (key, v) ∈ pw := by
  induction pw with
  | nil => simp [lookup] at h
  | cons kv rest ih =>
    obtain ⟨k, x⟩ := kv
    unfold lookup at h
    by_cases hk : k = key
    · simp only [hk, if_true, Except.ok.injEq] at h
      simp [hk, h]
    · simp only [hk, if_false] at h
      exact List.mem_cons_of_mem _ (ih h)

theorem lookup_of_mem {key : String} {pw : List (String × ℝ)} {v : ℝ} (hn : (pw.map Prod.fst).Nodup)
    (h : (key, v) ∈ pw) : lookup key pw = .ok v := by
  induction pw with
  | nil => simp at h
  | cons kv rest ih =>
    obtain ⟨k, x⟩ := kv
    simp only [List.map_cons, List.nodup_cons] at hn
    rcases List.mem_cons.1 h with h | h
    · simp only [Prod.mk.injEq] at h
      simp [lookup, h.1, h.2]
    · have : k ≠ key := by
        rintro rfl
        exact hn.1 (List.mem_map.2 ⟨_, h, rfl⟩)
      simp only [lookup, this, if_false]
      exact ih hn.2 h

theorem lookup_cases (key : String) (pw : List (String × ℝ)) :
    (key ∈ pw.map Prod.fst ∧ ∃ v, lookup key pw = .ok v) ∨ (key ∉ pw.map Prod.fst ∧ lookup key pw = .error .keyError) := by
  induction pw with
  | nil => right; simp [lookup]
  | cons kv rest ih =>
    obtain ⟨k, x⟩ := kv
    by_cases hk : k = key
    · left; simp [lookup, hk]
    · rcases ih with ⟨h1, h2⟩ | ⟨h1, h2⟩
      · left; exact ⟨by simp at h1 ⊢; exact Or.inr h1, by simpa [lookup, hk] using h2⟩
      · right
        refine ⟨?_, by simpa [lookup, hk] using h2⟩
        simp only [List.map_cons, List.mem_cons, not_or]
        exact ⟨fun h => hk h.symm, h1⟩

theorem mapM_lookup_ok (pw l : List (String × ℝ)) (h : ∀ kv ∈ l, kv.1 ∈ pw.map Prod.fst) :
    ∃ vs, l.mapM (fun kv => lookup kv.1 pw) = .ok vs := by
  induction l with
  | nil => exact ⟨[], rfl⟩
  | cons kv l ih =>
    obtain ⟨vs, hvs⟩ := ih fun kv' h' => h kv' (by simp [h'])
    rcases lookup_cases kv.1 pw with ⟨-, v, hv⟩ | ⟨hno, -⟩
    · exact ⟨v :: vs, by simp [List.mapM_cons, hv, hvs, bind, Except.bind, pure, Except.pure]⟩
    · exact absurd (h kv (by simp)) hno

theorem mapM_lookup_nodup (pw l : List (String × ℝ)) (hn : (pw.map Prod.fst).Nodup) (h : ∀ kv ∈ l, kv ∈ pw) :
    l.mapM (fun kv => lookup kv.1 pw) = .ok (l.map Prod.snd) := by
  induction l with
  | nil => rfl
  | cons kv l ih =>
    have h1 := ih fun kv' h' => h kv' (by simp [h'])
    have h2 := lookup_of_mem hn (h kv (by simp))
    simp [List.mapM_cons, h1, h2, bind, Except.bind, pure, Except.pure]

theorem width_ok {l : Level} {pw : List (String × ℝ)} (h : l.widths = some pw) : ∃ w, l.width = .ok w := by
  obtain ⟨vs, hvs⟩ := mapM_lookup_ok pw pw fun kv hk => List.mem_map.2 ⟨kv, hk, rfl⟩
  exact ⟨pyNumSum vs, by simp [Level.width, Level.partialWidths, h, hvs, bind, Except.bind]⟩

theorem pyNumSum_eq (l : List ℝ) : pyNumSum l = l.sum := by
  unfold pyNumSum
  exact List.sum_eq_foldl.symm

theorem width_eq {l : Level} {pw : List (String × ℝ)} (h : l.widths = some pw) (hn : (pw.map Prod.fst).Nodup) :
    l.width = .ok (pw.map Prod.snd).sum := by
  simp [Level.width, Level.partialWidths, h, mapM_lookup_nodup pw pw hn (fun _ h => h), bind, Except.bind, pyNumSum_eq]

/-- recoil correction that the class passes on -/
def Shape.recoil : Shape → ℝ → ℝ
  | .box R => R
  | _ => noRecoil

/-- distribution and parameters of a class, from the resonance energy -/
noncomputable def Shape.distOf (s : Shape) (k : PhysConst) (inter : Level) (er : ℝ) : Except Err (Dist × List ℝ) :=
  match s with
  | .box _ => .ok (uniformDist, [er - 0.5, 1])
  | .breitWigner => do
      let w ← inter.width
      .ok (cauchyDist, [er, 0.5 * w])
  | .gauss amu T => do
      let d ← getDopplerWidth k amu T er
      .ok (normDist, [er, d / Real.sqrt 2])
  | .pseudoVoigt amu T => do
      let w ← inter.width
      let d ← getDopplerWidth k amu T er
      .ok ((mkPV er w d).toDist, [])
  | .voigt amu T => do
      let w ← inter.width
      let d ← getDopplerWidth k amu T er
      .ok ((mkPV er w d).toSemiDist, [])

/-- Every class is the base class with another distribution, chosen independently of the final state. -/
theorem build_eq (s : Shape) (k : PhysConst) (init inter : Level) (final : Option Level) :
    s.build k init inter final = (mkResonance k init inter final s.recoil).bind fun r0 =>
      (s.distOf k inter r0.er).bind fun dp => .ok { r0 with dist := dp.1, params := dp.2 } := by
  cases s with
  | box R =>
    simp only [Shape.build, Shape.recoil, Shape.distOf]
    cases h : mkResonance k init inter final R with
    | error e => rfl
    | ok r =>
      unfold mkResonance at h
      simp only [Except.bind]
      congr 1
      simp only [bind, Except.bind] at h
      split at h <;> try simp at h
      split at h <;> try simp at h
      split at h <;> try simp at h
      subst h; rfl
  | breitWigner =>
    simp only [Shape.build, Shape.recoil, Shape.distOf, mkBreitWigner, bind]
    cases mkResonance k init inter final noRecoil <;> simp only [Except.bind]
    cases inter.width <;> simp only
  | gauss amu T =>
    simp only [Shape.build, Shape.recoil, Shape.distOf, mkGauss, bind]
    cases mkResonance k init inter final noRecoil with
    | error e => simp only [Except.bind]
    | ok r =>
      simp only [Except.bind]
      cases getDopplerWidth k amu T r.er <;> simp only
  | pseudoVoigt amu T =>
    simp only [Shape.build, Shape.recoil, Shape.distOf, mkPseudoVoigt, bind]
    cases mkResonance k init inter final noRecoil with
    | error e => simp only [Except.bind]
    | ok r =>
      simp only [Except.bind]
      cases inter.width <;> simp only
      cases getDopplerWidth k amu T r.er <;> simp only
  | voigt amu T =>
    simp only [Shape.build, Shape.recoil, Shape.distOf, mkVoigt, mkPseudoVoigt, bind]
    cases mkResonance k init inter final noRecoil with
    | error e => simp only [Except.bind]
    | ok r =>
      simp only [Except.bind]
      cases inter.width <;> simp only
      cases h : getDopplerWidth k amu T r.er <;> simp only [h]

/-- inversion of a successful construction -/
theorem build_inv {s : Shape} {k : PhysConst} {init inter : Level} {final : Option Level} {r : Reso}
    (h : s.build k init inter final = .ok r) : ∃ r0 d ps, mkResonance k init inter final s.recoil = .ok r0 ∧
      s.distOf k inter r0.er = .ok (d, ps) ∧ r = { r0 with dist := d, params := ps } := by
  rw [build_eq] at h
  cases h0 : mkResonance k init inter final s.recoil with
  | error e => simp [h0, Except.bind] at h
  | ok r0 =>
    cases h1 : s.distOf k inter r0.er with
    | error e => simp [h0, h1, Except.bind] at h
    | ok dp =>
      simp only [h0, h1, Except.bind, Except.ok.injEq] at h
      exact ⟨r0, dp.1, dp.2, rfl, h1, h.symm⟩

end Ries
