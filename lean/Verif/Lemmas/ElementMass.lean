import Verif.Lemmas.Density
import Mathlib.Algebra.Order.BigOperators.Group.List
import Mathlib.Algebra.BigOperators.Ring.List
import Mathlib.Tactic.Linarith
import Mathlib.Data.List.Perm.Basic
import Mathlib.Algebra.Order.Ring.Defs
import Mathlib.Algebra.Order.Field.Basic

/-! # Lemmas on element masses -/

namespace Ries

section
variable {α κ : Type} [DecidableEq κ]

theorem amu_ok [Semiring α] {abundances : List (κ × α)} (hd : (abundances.map Prod.fst).Nodup)
    {m a : κ → α} {ks : List κ} (ha : ∀ k ∈ ks, (k, a k) ∈ abundances) :
    amuFromComposition abundances (ks.map fun k => (k, some (m k))) =
      .ok ((ks.map fun k => m k * a k).sum) := by
  have h : (ks.map fun k => (k, some (m k))).mapM (amuTerm abundances) =
      .ok (ks.map fun k => m k * a k) := by
    rw [List.mapM_map]
    refine mapM_ok fun k hk => ?_
    simp [Function.comp, amuTerm, dictGet_eq hd (ha k hk), bind, Except.bind]
  simp [amuFromComposition, h, bind, Except.bind]

theorem mapM_perm {β γ : Type} {f : β → Except Err γ} {xs ys : List β} (h : xs.Perm ys) {a : List γ}
    (hx : xs.mapM f = .ok a) : ∃ b, ys.mapM f = .ok b ∧ a.Perm b := by
  induction h generalizing a with
  | nil => exact ⟨a, hx, .refl _⟩
  | @cons x l₁ l₂ _ ih =>
    rw [List.mapM_cons] at hx ⊢
    rcases hfx : f x with e | y
    · simp [hfx, bind, Except.bind] at hx
    · simp only [hfx, bind, Except.bind] at hx ⊢
      rcases h2 : List.mapM f l₁ with e | c
      · rw [h2] at hx; simp at hx
      · rw [h2] at hx
        obtain ⟨b, hb, hp⟩ := ih h2
        refine ⟨y :: b, by rw [hb]; rfl, ?_⟩
        have : a = y :: c := by simpa [pure, Except.pure] using hx.symm
        rw [this]
        exact hp.cons y
  | swap x y l =>
    simp only [List.mapM_cons, bind, Except.bind] at hx ⊢
    rcases hfx : f x with e | u
    · rcases hfy : f y with e' | v <;> simp [hfx, hfy] at hx
    · rcases hfy : f y with e' | v
      · simp [hfy] at hx
      · rcases h2 : List.mapM f l with e | c
        · simp [hfx, hfy, h2] at hx
        · simp only [hfx, hfy, h2, pure, Except.pure, Except.ok.injEq] at hx ⊢
          exact ⟨_, rfl, by rw [← hx]; exact .swap _ _ _⟩
  | trans _ _ ih1 ih2 =>
    obtain ⟨b, hb, hp⟩ := ih1 hx
    obtain ⟨c, hc, hp2⟩ := ih2 hb
    exact ⟨c, hc, hp.trans hp2⟩

theorem dictGet_perm {β : Type} {d d' : List (κ × β)} (hd : (d.map Prod.fst).Nodup) (h : d.Perm d')
    (k : κ) : dictGet k d = dictGet k d' := by
  have hd' : (d'.map Prod.fst).Nodup := (h.map _).nodup_iff.1 hd
  by_cases hk : k ∈ d.map Prod.fst
  · obtain ⟨p, hp, rfl⟩ := List.mem_map.1 hk
    rw [dictGet_eq hd (k := p.1) (v := p.2) hp, dictGet_eq hd' (k := p.1) (v := p.2) (h.subset hp)]
  · rw [dictGet_missing hk, dictGet_missing fun hc => hk ((h.map _).symm.subset hc)]

theorem amu_perm [Semiring α] {ab ab' : List (κ × α)} {iso iso' : List (κ × Option α)}
    (hd : (ab.map Prod.fst).Nodup) (h1 : ab.Perm ab') (h2 : iso.Perm iso') {v : α}
    (h : amuFromComposition ab iso = .ok v) : amuFromComposition ab' iso' = .ok v := by
  have ht : amuTerm ab = amuTerm ab' := by
    funext p
    simp [amuTerm, dictGet_perm hd h1]
  unfold amuFromComposition at h ⊢
  rw [← ht]
  rcases h3 : List.mapM (amuTerm ab) iso with e | t
  · simp [h3, bind, Except.bind] at h
  · obtain ⟨b, hb, hp⟩ := mapM_perm h2 h3
    simp only [h3, hb, bind, Except.bind, Except.ok.injEq] at h ⊢
    rw [← h, hp.sum_eq]

theorem mapM_error {β γ : Type} {f : β → Except Err γ} {e : Err} {xs : List β}
    (hall : ∀ x ∈ xs, f x = .error e ∨ ∃ y, f x = .ok y) (hx : ∃ x ∈ xs, f x = .error e) :
    xs.mapM f = .error e := by
  induction xs with
  | nil => simp at hx
  | cons x xs ih =>
    rw [List.mapM_cons]
    rcases hall x (by simp) with h | ⟨y, h⟩
    · rw [h]; rfl
    · have : ∃ x ∈ xs, f x = .error e := by
        obtain ⟨z, hz, hze⟩ := hx
        rcases List.mem_cons.1 hz with rfl | hz
        · rw [h] at hze; cases hze
        · exact ⟨z, hz, hze⟩
      rw [h]
      simp only [bind, Except.bind]
      rw [ih (fun z hz => hall z (by simp [hz])) this]

omit [DecidableEq κ] in
theorem sum_bounds [Field α] [LinearOrder α] [IsStrictOrderedRing α] {ks : List κ} {m a : κ → α}
    {lo hi : α} (ha : ∀ k ∈ ks, 0 ≤ a k) (hm : ∀ k ∈ ks, lo ≤ m k ∧ m k ≤ hi) :
    lo * (ks.map a).sum ≤ (ks.map fun k => m k * a k).sum ∧
      (ks.map fun k => m k * a k).sum ≤ hi * (ks.map a).sum := by
  induction ks with
  | nil => simp
  | cons k ks ih =>
    obtain ⟨h1, h2⟩ := ih (fun j hj => ha j (by simp [hj])) (fun j hj => hm j (by simp [hj]))
    have h3 := mul_le_mul_of_nonneg_right (hm k (by simp)).1 (ha k (by simp))
    have h4 := mul_le_mul_of_nonneg_right (hm k (by simp)).2 (ha k (by simp))
    simp only [List.map_cons, List.sum_cons, mul_add]
    constructor <;> linarith

end
end Ries
