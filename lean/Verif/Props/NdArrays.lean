import Verif.Model.NdArrays
import Verif.Props.Beam

/-!
# C160, C161: arrays of any shape, flux on a grid of depths and energies
-/

namespace Ries

open Nd

/-! ## Specification -/

/-- A shape can be stretched to another one: every axis has length 1 or the length of the corresponding axis, leading axes may be missing.
(The last axis comes first in the lists.) -/
def Into : List ℕ → List ℕ → Prop
  | [], _ => True
  | _ :: _, [] => False
  | d :: s, e :: t => (d = 1 ∨ d = e) ∧ Into s t

/-- the indices of an array with a given shape -/
def Valid (s i : List ℕ) : Prop := List.Forall₂ (· < ·) i s

namespace NExpr

/-- the number that an expression computes from numbers -/
def den {n : ℕ} (x : Fin n → ℝ) : NExpr n → ℝ
  | arg j => x j
  | lit c => c
  | fn f e => f (den x e)
  | bin f a b => f (den x a) (den x b)

/-- an argument occurs in an expression -/
def Uses {n : ℕ} (j : Fin n) : NExpr n → Prop
  | arg j' => j' = j
  | lit _ => False
  | fn _ e => Uses j e
  | bin _ a b => Uses j a ∨ Uses j b

end NExpr

/-- A function on arrays computes a function of numbers entry by entry, for arrays of every shape with entries in `S`. -/
def Pointwise (S : Set ℝ) (p : Nd → Except Err Nd) (f : ℝ → ℝ) : Prop :=
  ∀ E : Nd, (∀ i, Valid E.shape i → E.get i ∈ S) →
    ∃ v, p E = .ok v ∧ v.shape = E.shape ∧ ∀ i, Valid E.shape i → v.get i = f (E.get i)

/-- the same, where the result may also be a number that is equal to all entries -/
def Acts (S : Set ℝ) (p : Nd → Except Err Nd) (f : ℝ → ℝ) : Prop :=
  ∀ E : Nd, (∀ i, Valid E.shape i → E.get i ∈ S) →
    ∃ v, p E = .ok v ∧ (v.shape = E.shape ∨ v.shape = []) ∧ ∀ i, Valid E.shape i → v.at' i = f (E.get i)

/-- A function of two arrays: whenever both can be stretched to a common shape, the result has the smallest such shape and its entries are
the values for the entries of the stretched arrays, where these are in the domain. -/
def Outer (D : ℝ → ℝ → Prop) (p : Nd → Nd → Except Err Nd) (f : ℝ → ℝ → ℝ) : Prop :=
  ∀ (x y : Nd) (T : List ℕ), Into x.shape T → Into y.shape T →
    ∃ v, p x y = .ok v ∧ (∀ T', Into v.shape T' ↔ Into x.shape T' ∧ Into y.shape T') ∧
      ∀ i, Valid v.shape i → D (x.at' i) (y.at' i) → v.get i = f (x.at' i) (y.at' i)

/-- the same for three arrays -/
def Outer3 (D : ℝ → ℝ → ℝ → Prop) (p : Nd → Nd → Nd → Except Err Nd) (f : ℝ → ℝ → ℝ → ℝ) : Prop :=
  ∀ (x y z : Nd) (T : List ℕ), Into x.shape T → Into y.shape T → Into z.shape T →
    ∃ v, p x y z = .ok v ∧ (∀ T', Into v.shape T' ↔ Into x.shape T' ∧ Into y.shape T' ∧ Into z.shape T') ∧
      ∀ i, Valid v.shape i → D (x.at' i) (y.at' i) (z.at' i) → v.get i = f (x.at' i) (y.at' i) (z.at' i)

/-- a weighted sum (nested in any way) and the function of numbers that it stands for -/
inductive NSum (S : Set ℝ) : NObj → (ℝ → ℝ) → Prop
  | leaf {p : Nd → Except Err Nd} {f : ℝ → ℝ} (h : Pointwise S p f) : NSum S (.leaf p) f
  | const (c : ℝ) : NSum S (.const c) fun _ => c
  | empty (ss : List ℝ) : NSum S (.wsum [] ss) fun _ => 0
  | cons {r : NObj} {rs : List NObj} {f g : ℝ → ℝ} (s : ℝ) {ss : List ℝ} (h : NSum S r f) (h' : NSum S (.wsum rs ss) g) :
      NSum S (.wsum (r :: rs) (s :: ss)) fun E => s * f E + g E

/-- something that is not a constant occurs in a cross section -/
inductive NVaries : NObj → Prop
  | leaf (p : Nd → Except Err Nd) : NVaries (.leaf p)
  | wsum {rs : List NObj} {ss : List ℝ} {r : NObj} : r ∈ rs → NVaries r → NVaries (.wsum rs ss)

/-! ## Lemmas -/

theorem into_refl : ∀ s : List ℕ, Into s s
  | [] => trivial
  | _ :: s => ⟨.inr rfl, into_refl s⟩

theorem into_antisymm : ∀ {s t : List ℕ}, Into s t → Into t s → s = t
  | [], [], _, _ => rfl
  | [], _ :: _, _, h => h.elim
  | _ :: _, [], h, _ => h.elim
  | d :: s, e :: t, h, h' => by
    rw [into_antisymm h.2 h'.2]
    rcases h.1 with rfl | rfl
    · rcases h'.1 with rfl | rfl <;> rfl
    · rfl

theorem shape_ext {s t : List ℕ} (h : ∀ T, Into s T ↔ Into t T) : s = t :=
  into_antisymm ((h t).2 (into_refl t)) ((h s).1 (into_refl s))

theorem bdim_join {a b d : ℕ} (h : bdim a b = some d) (e : ℕ) : (d = 1 ∨ d = e) ↔ (a = 1 ∨ a = e) ∧ (b = 1 ∨ b = e) := by
  unfold bdim at h
  split at h
  · obtain rfl := Option.some.inj h; subst_vars; simp
  · split at h
    · obtain rfl := Option.some.inj h; subst_vars; simp
    · split at h
      · obtain rfl := Option.some.inj h; subst_vars; simp
      · simp at h

theorem bdim_some {a b e : ℕ} (ha : a = 1 ∨ a = e) (hb : b = 1 ∨ b = e) : ∃ d, bdim a b = some d := by
  unfold bdim
  split
  · exact ⟨_, rfl⟩
  · split
    · exact ⟨_, rfl⟩
    · split
      · exact ⟨_, rfl⟩
      · omega

theorem bshape_join : ∀ {s t u : List ℕ}, bshape s t = some u → ∀ T, Into u T ↔ Into s T ∧ Into t T
  | [], t, u, h, T => by
    simp only [bshape, Option.some.injEq] at h
    subst h; simp [Into]
  | a :: s, [], u, h, T => by
    simp only [bshape, Option.some.injEq] at h
    subst h; simp [Into]
  | a :: s, b :: t, u, h, T => by
    simp only [bshape] at h
    split at h
    · rename_i d w hd hw
      obtain rfl := Option.some.inj h
      cases T with
      | nil => simp [Into]
      | cons e T =>
        simp only [Into]
        rw [bdim_join hd e, bshape_join hw T]
        tauto
    · simp at h

theorem bshape_some : ∀ {s t T : List ℕ}, Into s T → Into t T → ∃ u, bshape s t = some u
  | [], t, _, _, _ => ⟨t, by simp [bshape]⟩
  | a :: s, [], _, _, _ => ⟨a :: s, by simp [bshape]⟩
  | a :: s, b :: t, [], h, _ => h.elim
  | a :: s, b :: t, e :: T, h, h' => by
    obtain ⟨d, hd⟩ := bdim_some h.1 h'.1
    obtain ⟨u, hu⟩ := bshape_some h.2 h'.2
    exact ⟨d :: u, by simp [bshape, hd, hu]⟩

theorem align_align : ∀ {s u : List ℕ}, Into s u → ∀ i, align s (align u i) = align s i
  | [], _, _, _ => by simp [align]
  | _ :: _, [], h, _ => h.elim
  | d :: s, e :: u, h, [] => by simp [align]
  | d :: s, e :: u, h, k :: i => by
    simp only [align, align_align h.2 i]
    rcases h.1 with rfl | rfl
    · simp
    · by_cases hd : d = 1 <;> simp [hd]

theorem align_valid : ∀ {s i : List ℕ}, Valid s i → align s i = i
  | [], [], _ => rfl
  | d :: s, k :: i, h => by
    cases h with
    | cons h1 h2 =>
      simp only [align, align_valid h2]
      split
      · congr 1; omega
      · rfl

theorem at_valid {a : Nd} {i : List ℕ} (h : Valid a.shape i) : a.at' i = a.get i := by rw [at', align_valid h]

theorem op2_ok {f : ℝ → ℝ → ℝ} {a b : Nd} {T : List ℕ} (ha : Into a.shape T) (hb : Into b.shape T) :
    ∃ v, op2 f a b = .ok v ∧ (∀ T, Into v.shape T ↔ Into a.shape T ∧ Into b.shape T) ∧ ∀ i, v.at' i = f (a.at' i) (b.at' i) := by
  obtain ⟨u, hu⟩ := bshape_some ha hb
  have hj := bshape_join hu
  refine ⟨⟨u, fun i => f (a.at' i) (b.at' i)⟩, by simp [op2, hu], hj, fun i => ?_⟩
  have h := (hj u).1 (into_refl u)
  show f (a.get (align a.shape (align u i))) (b.get (align b.shape (align u i))) = _
  rw [align_align h.1, align_align h.2]
  rfl

theorem op2_error {f : ℝ → ℝ → ℝ} {a b : Nd} (h : ¬ ∃ T, Into a.shape T ∧ Into b.shape T) : op2 f a b = .error .valueError := by
  unfold op2
  cases hb : bshape a.shape b.shape with
  | none => rfl
  | some u => exact absurd ⟨u, (bshape_join hb u).1 (into_refl u)⟩ h

theorem op1_at (f : ℝ → ℝ) (a : Nd) (i : List ℕ) : (op1 f a).at' i = f (a.at' i) := rfl

theorem run_spec {n : ℕ} (env : Fin n → Nd) (e : NExpr n) :
    (∃ v, e.run env = .ok v ∧ (∀ T, Into v.shape T ↔ ∀ j, e.Uses j → Into (env j).shape T) ∧
      ∀ i, v.at' i = e.den fun j => (env j).at' i) ∨
    (e.run env = .error .valueError ∧ ¬ ∃ T, ∀ j, e.Uses j → Into (env j).shape T) := by
  induction e with
  | arg j => exact .inl ⟨env j, rfl, fun T => by simp [NExpr.Uses], fun i => rfl⟩
  | lit x => exact .inl ⟨.num x, rfl, fun T => by simp [NExpr.Uses, Nd.num, Into], fun i => rfl⟩
  | fn f e ih =>
    rcases ih with ⟨v, h1, h2, h3⟩ | ⟨h1, h2⟩
    · exact .inl ⟨op1 f v, by simp [NExpr.run, h1, Except.map], h2, fun i => by rw [op1_at, h3]; rfl⟩
    · exact .inr ⟨by simp [NExpr.run, h1, Except.map], h2⟩
  | bin f a b iha ihb =>
    have hu : ∀ T, (∀ j, (NExpr.bin f a b).Uses j → Into (env j).shape T) ↔
        (∀ j, a.Uses j → Into (env j).shape T) ∧ ∀ j, b.Uses j → Into (env j).shape T := by
      intro T
      simp only [NExpr.Uses]
      exact ⟨fun h => ⟨fun j hj => h j (.inl hj), fun j hj => h j (.inr hj)⟩, fun h j hj => hj.elim (h.1 j) (h.2 j)⟩
    simp only [hu]
    rcases iha with ⟨v, h1, h2, h3⟩ | ⟨h1, h2⟩
    · rcases ihb with ⟨w, k1, k2, k3⟩ | ⟨k1, k2⟩
      · by_cases hT : ∃ T, Into v.shape T ∧ Into w.shape T
        · obtain ⟨T, hv, hw⟩ := hT
          obtain ⟨u, l1, l2, l3⟩ := op2_ok (f := f) hv hw
          exact .inl ⟨u, by simp [NExpr.run, h1, k1, bind, Except.bind, l1], fun T => by rw [l2, h2, k2],
            fun i => by rw [l3, h3, k3]; rfl⟩
        · refine .inr ⟨by simp [NExpr.run, h1, k1, bind, Except.bind, op2_error hT], ?_⟩
          rintro ⟨T, hT'⟩
          exact hT ⟨T, (h2 T).2 hT'.1, (k2 T).2 hT'.2⟩
      · exact .inr ⟨by simp [NExpr.run, h1, k1, bind, Except.bind], fun ⟨T, h⟩ => k2 ⟨T, h.2⟩⟩
    · exact .inr ⟨by simp [NExpr.run, h1, bind, Except.bind], fun ⟨T, h⟩ => h2 ⟨T, h.1⟩⟩

/-- an expression of one argument -/
theorem run_one (e : NExpr 1) (h : e.Uses 0) (S : Set ℝ) : Pointwise S (fun E => e.run ![E]) fun x => e.den ![x] := by
  intro E _
  have hu : ∀ T, (∀ j, e.Uses j → Into (![E] j).shape T) ↔ Into E.shape T := by
    intro T
    refine ⟨fun h' => h' 0 h, fun h' j _ => ?_⟩
    fin_cases j
    exact h'
  rcases run_spec ![E] e with ⟨v, h1, h2, h3⟩ | ⟨h1, h2⟩
  · have hs : v.shape = E.shape := shape_ext fun T => by rw [h2, hu]
    refine ⟨v, h1, hs, fun i hi => ?_⟩
    rw [← at_valid (by rw [hs]; exact hi), h3]
    congr 1
    funext j
    fin_cases j
    exact at_valid hi
  · exact absurd ⟨E.shape, (hu _).2 (into_refl _)⟩ h2

/-- an expression of two arguments -/
theorem run_two {e : NExpr 2} (h0 : e.Uses 0) (h1 : e.Uses 1) {D : ℝ → ℝ → Prop} {f : ℝ → ℝ → ℝ} (hf : ∀ x y, e.den ![x, y] = f x y) :
    Outer D (fun x y => e.run ![x, y]) f := by
  intro x y T hx hy
  have hu : ∀ T, (∀ j, e.Uses j → Into (![x, y] j).shape T) ↔ Into x.shape T ∧ Into y.shape T := by
    intro T
    refine ⟨fun h' => ⟨h' 0 h0, h' 1 h1⟩, fun h' j _ => ?_⟩
    fin_cases j
    · exact h'.1
    · exact h'.2
  rcases run_spec ![x, y] e with ⟨v, k1, k2, k3⟩ | ⟨k1, k2⟩
  · refine ⟨v, k1, fun T => by rw [k2, hu], fun i hi _ => ?_⟩
    rw [← at_valid hi, k3, ← hf]
    congr 1
    funext j
    fin_cases j <;> rfl
  · exact absurd ⟨T, (hu _).2 ⟨hx, hy⟩⟩ k2

/-- an expression of three arguments -/
theorem run_three {e : NExpr 3} (h0 : e.Uses 0) (h1 : e.Uses 1) (h2 : e.Uses 2) {D : ℝ → ℝ → ℝ → Prop} {f : ℝ → ℝ → ℝ → ℝ}
    (hf : ∀ x y z, e.den ![x, y, z] = f x y z) : Outer3 D (fun x y z => e.run ![x, y, z]) f := by
  intro x y z T hx hy hz
  have hu : ∀ T, (∀ j, e.Uses j → Into (![x, y, z] j).shape T) ↔ Into x.shape T ∧ Into y.shape T ∧ Into z.shape T := by
    intro T
    refine ⟨fun h' => ⟨h' 0 h0, h' 1 h1, h' 2 h2⟩, fun h' j _ => ?_⟩
    fin_cases j
    · exact h'.1
    · exact h'.2.1
    · exact h'.2.2
  rcases run_spec ![x, y, z] e with ⟨v, k1, k2, k3⟩ | ⟨k1, k2⟩
  · refine ⟨v, k1, fun T => by rw [k2, hu], fun i hi _ => ?_⟩
    rw [← at_valid hi, k3, ← hf]
    congr 1
    funext j
    fin_cases j <;> rfl
  · exact absurd ⟨T, (hu _).2 ⟨hx, hy, hz⟩⟩ k2

theorem den_subst {n m : ℕ} (args : Fin n → NExpr m) (x : Fin m → ℝ) (e : NExpr n) :
    (e.subst args).den x = e.den fun j => (args j).den x := by
  induction e with
  | arg j => rfl
  | lit c => rfl
  | fn f e ih => simp only [NExpr.subst, NExpr.den, ih]
  | bin f a b iha ihb => simp only [NExpr.subst, NExpr.den, iha, ihb]

theorem uses_subst {n m : ℕ} {args : Fin n → NExpr m} {e : NExpr n} {j : Fin n} {l : Fin m} (h : e.Uses j) (h' : (args j).Uses l) :
    (e.subst args).Uses l := by
  induction e with
  | arg j' => obtain rfl : j' = j := h; exact h'
  | lit c => exact h.elim
  | fn f e ih => exact ih h
  | bin f a b iha ihb => exact h.elim (fun h => .inl (iha h)) fun h => .inr (ihb h)

theorem Pointwise.acts {S : Set ℝ} {p : Nd → Except Err Nd} {f : ℝ → ℝ} (h : Pointwise S p f) : Acts S p f := by
  intro E hE
  obtain ⟨v, h1, h2, h3⟩ := h E hE
  exact ⟨v, h1, .inl h2, fun i hi => by rw [at_valid (by rw [h2]; exact hi), h3 i hi]⟩

theorem into_of {v E : Nd} (h : v.shape = E.shape ∨ v.shape = []) : Into v.shape E.shape := by
  rcases h with h | h <;> rw [h]
  · exact into_refl _
  · trivial

/-- the shape of a sum of values -/
theorem join_shape {v w u E : Nd} (hv : v.shape = E.shape ∨ v.shape = []) (hw : w.shape = E.shape ∨ w.shape = [])
    (hu : ∀ T, Into u.shape T ↔ Into v.shape T ∧ Into w.shape T) :
    (u.shape = E.shape ∨ u.shape = []) ∧ (v.shape = E.shape ∨ w.shape = E.shape → u.shape = E.shape) ∧
    (v.shape = [] → w.shape = [] → u.shape = []) := by
  have e0 : v.shape = [] → w.shape = [] → u.shape = [] := fun h h' => shape_ext fun T => by rw [hu, h, h']; simp
  have e1 : v.shape = E.shape → u.shape = E.shape := fun h => shape_ext fun T => by
    rw [hu, h]
    rcases hw with h' | h' <;> rw [h'] <;> simp [Into]
  have e2 : w.shape = E.shape → u.shape = E.shape := fun h => shape_ext fun T => by
    rw [hu, h]
    rcases hv with h' | h' <;> rw [h'] <;> simp [Into]
  refine ⟨?_, fun h => h.elim e1 e2, e0⟩
  rcases hv with h | h
  · exact .inl (e1 h)
  · rcases hw with h' | h'
    · exact .inl (e2 h')
    · exact .inr (e0 h h')

theorem iadd_ok {a b E : Nd} (ha : a.shape = E.shape ∨ a.shape = []) (hb : b.shape = E.shape ∨ b.shape = []) :
    ∃ v, a.iadd b = .ok v ∧ (v.shape = E.shape ∨ v.shape = []) ∧ (a.shape = E.shape ∨ b.shape = E.shape → v.shape = E.shape) ∧
      (a.shape = [] → b.shape = [] → v.shape = []) ∧ ∀ i, v.at' i = a.at' i + b.at' i := by
  obtain ⟨v, h1, h2, h3⟩ := op2_ok (f := (· + ·)) (into_of ha) (into_of hb)
  obtain ⟨h4, h5, h6⟩ := join_shape ha hb h2
  refine ⟨v, ?_, h4, h5, h6, h3⟩
  unfold iadd
  split
  · exact h1
  · rename_i hne
    have hE := ha.resolve_right hne
    simp [h1, bind, Except.bind, h5 (.inl hE), hE]

theorem call_spec {S : Set ℝ} {o : NObj} {f : ℝ → ℝ} (h : NSum S o f) (E : Nd) (hE : ∀ i, Valid E.shape i → E.get i ∈ S) :
    (∃ v, o.call E = .ok v ∧ (v.shape = E.shape ∨ v.shape = []) ∧ (NVaries o → v.shape = E.shape) ∧ (¬ NVaries o → v.shape = []) ∧
      ∀ i, Valid E.shape i → v.at' i = f (E.get i)) ∧
    ∀ rs ss, o = .wsum rs ss → ∀ acc : Nd, acc.shape = E.shape ∨ acc.shape = [] →
      ∃ v, NObj.callLoop rs ss acc E = .ok v ∧ (v.shape = E.shape ∨ v.shape = []) ∧
        (acc.shape = E.shape ∨ NVaries o → v.shape = E.shape) ∧ (acc.shape = [] → ¬ NVaries o → v.shape = []) ∧ ∀ i, Valid E.shape i → v.at' i = acc.at' i + f (E.get i) := by
  have fromLoop : ∀ {rs : List NObj} {ss : List ℝ} {f : ℝ → ℝ}, (∀ acc : Nd, acc.shape = E.shape ∨ acc.shape = [] →
      ∃ v, NObj.callLoop rs ss acc E = .ok v ∧ (v.shape = E.shape ∨ v.shape = []) ∧
        (acc.shape = E.shape ∨ NVaries (.wsum rs ss) → v.shape = E.shape) ∧ (acc.shape = [] → ¬ NVaries (.wsum rs ss) → v.shape = []) ∧ ∀ i, Valid E.shape i → v.at' i = acc.at' i + f (E.get i)) →
      ∃ v, (NObj.wsum rs ss).call E = .ok v ∧ (v.shape = E.shape ∨ v.shape = []) ∧ (NVaries (.wsum rs ss) → v.shape = E.shape) ∧
        (¬ NVaries (.wsum rs ss) → v.shape = []) ∧ ∀ i, Valid E.shape i → v.at' i = f (E.get i) := by
    intro rs ss f h
    obtain ⟨v, h1, h2, h3, h0, h4⟩ := h (.num 0) (.inr rfl)
    refine ⟨v, by simp only [NObj.call]; exact h1, h2, fun hv => h3 (.inr hv), fun hv => h0 rfl hv, fun i hi => ?_⟩
    rw [h4 i hi, show (Nd.num 0).at' i = 0 from rfl, zero_add]
  induction h with
  | leaf h =>
    obtain ⟨v, h1, h2, h3⟩ := h E hE
    refine ⟨⟨v, by simp only [NObj.call]; exact h1, .inl h2, fun _ => h2, fun h => absurd (.leaf _) h, fun i hi => ?_⟩, fun rs ss e => by simp at e⟩
    rw [at_valid (by rw [h2]; exact hi), h3 i hi]
  | const c =>
    exact ⟨⟨.num c, by simp only [NObj.call], .inr rfl, nofun, fun _ => rfl, fun i _ => rfl⟩, fun rs ss e => by simp at e⟩
  | empty ss =>
    have hl : ∀ acc : Nd, acc.shape = E.shape ∨ acc.shape = [] → ∃ v, NObj.callLoop [] ss acc E = .ok v ∧
        (v.shape = E.shape ∨ v.shape = []) ∧ (acc.shape = E.shape ∨ NVaries (.wsum [] ss) → v.shape = E.shape) ∧
        (acc.shape = [] → ¬ NVaries (.wsum [] ss) → v.shape = []) ∧
        ∀ i, Valid E.shape i → v.at' i = acc.at' i + 0 := fun acc ha =>
      ⟨acc, by simp only [NObj.callLoop], ha, fun h => h.elim id fun h => by cases h with | wsum h _ => simp at h, fun h _ => h, fun i _ => by simp⟩
    exact ⟨fromLoop (f := fun _ => 0) hl, fun rs ss' e => by obtain ⟨rfl, rfl⟩ := NObj.wsum.inj e; exact hl⟩
  | @cons r rs f g s ss h h' ih ih' =>
    have hl : ∀ acc : Nd, acc.shape = E.shape ∨ acc.shape = [] → ∃ v, NObj.callLoop (r :: rs) (s :: ss) acc E = .ok v ∧
        (v.shape = E.shape ∨ v.shape = []) ∧ (acc.shape = E.shape ∨ NVaries (.wsum (r :: rs) (s :: ss)) → v.shape = E.shape) ∧
        (acc.shape = [] → ¬ NVaries (.wsum (r :: rs) (s :: ss)) → v.shape = []) ∧
        ∀ i, Valid E.shape i → v.at' i = acc.at' i + (s * f (E.get i) + g (E.get i)) := by
      intro acc ha
      obtain ⟨v, h1, h2, h3, h0, h4⟩ := ih.1
      obtain ⟨p, k1, k2, k3⟩ := op2_ok (f := (· * ·)) (a := .num s) (b := v) (T := E.shape) trivial (into_of h2)
      obtain ⟨k4, k5, k6⟩ := join_shape (v := .num s) (w := v) (u := p) (E := E) (.inr rfl) h2 k2
      obtain ⟨acc', l1, l2, l3, l0, l4⟩ := iadd_ok ha k4
      obtain ⟨w, m1, m2, m3, m0, m4⟩ := ih'.2 rs ss rfl acc' l2
      refine ⟨w, by simp only [NObj.callLoop, h1, k1, l1, bind, Except.bind]; exact m1, m2, fun hv => ?_, fun h1 h2 => ?_, fun i hi => ?_⟩
      · rcases hv with hv | hv
        · exact m3 (.inl (l3 (.inl hv)))
        · cases hv with
          | @wsum _ _ r' hm hv =>
            rcases List.mem_cons.1 hm with rfl | hm
            · exact m3 (.inl (l3 (.inr (k5 (.inr (h3 hv))))))
            · exact m3 (.inr (.wsum hm hv))
      · refine m0 (l0 h1 (k6 rfl (h0 fun h => h2 (.wsum (by simp) h)))) fun h => h2 ?_
        cases h with
        | wsum hm hv => exact .wsum (List.mem_cons_of_mem _ hm) hv
      · rw [m4 i hi, l4, k3, h4 i hi, show (Nd.num s).at' i = s from rfl]
        ring
    exact ⟨fromLoop (f := fun E => s * f E + g E) hl, fun rs' ss' e => by obtain ⟨rfl, rfl⟩ := NObj.wsum.inj e; exact hl⟩

/-! ## C160 -/

/-- C160: an expression of operators and numpy functions applied to arrays of any shapes.  If the shapes of the arguments that occur can be
stretched to a common shape, the result has the smallest such shape and holds at each index the value of the expression for the entries of
the stretched arguments; otherwise the code raises `ValueError`. -/
theorem C160_broadcast {n : ℕ} (e : NExpr n) (env : Fin n → Nd) :
    ((∃ T, ∀ j, e.Uses j → Into (env j).shape T) → ∃ v, e.run env = .ok v ∧
      (∀ T, Into v.shape T ↔ ∀ j, e.Uses j → Into (env j).shape T) ∧
      ∀ i, Valid v.shape i → v.get i = e.den fun j => (env j).at' i) ∧
    ((¬ ∃ T, ∀ j, e.Uses j → Into (env j).shape T) → e.run env = .error .valueError) := by
  rcases run_spec env e with ⟨v, h1, h2, h3⟩ | ⟨h1, h2⟩
  · exact ⟨fun _ => ⟨v, h1, h2, fun i hi => by rw [← at_valid hi, h3]⟩, fun h => absurd ⟨v.shape, (h2 _).1 (into_refl _)⟩ h⟩
  · exact ⟨fun h => absurd h h2, fun _ => h1⟩

/-- C160: the classes of cross sections return arrays of the shape of the energies, and each entry is the value for the number. -/
theorem C160_classes {r : Reso} {p : ℝ → ℝ} (hp : ∀ E, r.dist.pdf r.params E = .ok (.fin (p E))) (d : PV) (ics er : ℝ)
    (profile interp : ℝ → ℝ) (k : PhysConst) (s : KN) :
    (∀ b, ∃ σ, (∀ E, r.call E b = .ok (.fin (σ E))) ∧
      Pointwise Set.univ (fun E => (NExpr.resonance r.ics r.er (.scipyPdf p) b).run ![E]) σ) ∧
    Pointwise Set.univ (fun E => (NExpr.resonance ics er (.pvPdf d) true).run ![E]) (fun E => ics * d.pdfR E) ∧
    Pointwise Set.univ (fun E => (NExpr.resonance ics er (.pvPdf d) false).run ![E]) (fun E => ics * d.pdfR (E + er)) ∧
    Pointwise Set.univ (fun E => (NExpr.resonance ics er (.voigtPdf er profile) true).run ![E]) (fun E => ics * profile (E - er)) ∧
    Pointwise Set.univ (fun E => (NExpr.resonance ics er (.voigtPdf er profile) false).run ![E]) (fun E => ics * profile E) ∧
    Pointwise {E | 0 < E} (fun E => (NExpr.knTotal k s).run ![E]) (s.total k) ∧
    Pointwise {E | 0 < E} (fun E => (NExpr.xrmac interp).run ![E]) (fun E => (10 : ℝ) ^ interp (Real.logb 10 E)) := by
  have hr : ∀ (a e : ℝ) (q : NExpr 1), q.Uses 0 → ∀ b, (NExpr.resonance a e q b).Uses 0 := by
    intro a e q hq b
    refine .inr (uses_subst hq ?_)
    cases b
    · exact .inl rfl
    · exact rfl
  have hd : ∀ (a e : ℝ) (q : NExpr 1) (b : Bool) (x : ℝ), (NExpr.resonance a e q b).den ![x] = a * q.den ![if b then x else x + e] := by
    intro a e q b x
    show a * (q.subst _).den ![x] = _
    rw [den_subst]
    congr 2
    funext j
    fin_cases j
    cases b <;> rfl
  have hw : ∀ {S : Set ℝ} {e : NExpr 1} (_ : e.Uses 0) {f : ℝ → ℝ}, (∀ x, e.den ![x] = f x) → Pointwise S (fun E => e.run ![E]) f := by
    intro S e h f hf
    have := run_one e h S
    rwa [show (fun x => e.den ![x]) = f from funext hf] at this
  refine ⟨fun b => ⟨fun E => r.ics * p (if b then E else E + r.er), fun E => ?_, hw (hr _ _ (.scipyPdf p) rfl b) fun x => ?_⟩,
    hw (hr _ _ (.pvPdf d) (Or.inl (Or.inr rfl)) true) fun x => ?_, hw (hr _ _ (.pvPdf d) (Or.inl (Or.inr rfl)) false) fun x => ?_,
    hw (hr _ _ (.voigtPdf er profile) (Or.inl rfl) true) fun x => ?_, hw (hr _ _ (.voigtPdf er profile) (Or.inl rfl) false) fun x => ?_, hw ?_ fun x => rfl, hw ?_ fun x => rfl⟩
  · cases b <;> simp [Reso.call, hp, bind, Except.bind, Fl.smul]
  · rw [hd]; rfl
  · rw [hd]; rfl
  · rw [hd]; rfl
  · rw [hd]; rfl
  · rw [hd]
    show ics * profile (x + er - er) = _
    rw [add_sub_cancel_right]
  · exact .inl (.inr (.inl rfl))
  · exact .inr rfl

/-- C160: the kinematics and the differential cross sections of Compton scattering for arrays of energies and of angles (or scattered
energies) that can be stretched to a common shape: the result has the smallest such shape and holds the values for numbers, at positive
energies and possible scattered energies. -/
theorem C160_compton (k : PhysConst) (s : KN) :
    Outer (fun E _ => 0 < E) (fun E θ => (NExpr.epOverE k).run ![E, θ]) (KN.EpOverE k) ∧
    Outer (fun E _ => 0 < E) (fun E θ => (NExpr.dOmegaUnpol k s).run ![E, θ]) (s.dOmegaUnpol k) ∧
    Outer (fun E _ => 0 < E) (fun E θ => (NExpr.dTheta k s).run ![E, θ]) (s.dTheta k) ∧
    Outer (fun E Ep => 0 < E ∧ KN.comptonEdge k E ≤ Ep ∧ Ep ≤ E) (fun E Ep => (NExpr.theta k).run ![E, Ep]) (KN.theta k) ∧
    Outer (fun E Ep => 0 < E ∧ KN.comptonEdge k E ≤ Ep ∧ Ep ≤ E) (fun E Ep => (NExpr.dEp k s).run ![E, Ep]) (s.dEp k) ∧
    Outer3 (fun E _ _ => 0 < E) (fun E θ φ => (NExpr.dOmega k s).run ![E, θ, φ]) (s.dOmega k) ∧
    Outer3 (fun E Ep _ => 0 < E ∧ KN.comptonEdge k E ≤ Ep ∧ Ep ≤ E) (fun E Ep φ => (NExpr.dEpdPhi k s).run ![E, Ep, φ])
      (s.dEpdPhi k) :=
  ⟨run_two (e := .epOverE k) (by simp [NExpr.epOverE, NExpr.Uses]) (by simp [NExpr.epOverE, NExpr.Uses]) fun _ _ => rfl,
    run_two (e := .dOmegaUnpol k s) (by simp [NExpr.dOmegaUnpol, NExpr.epOverE, NExpr.Uses])
      (by simp [NExpr.dOmegaUnpol, NExpr.Uses]) fun _ _ => rfl,
    run_two (e := .dTheta k s) (by simp [NExpr.dTheta, NExpr.dOmegaUnpol, NExpr.epOverE, NExpr.Uses])
      (by simp [NExpr.dTheta, NExpr.Uses]) fun _ _ => rfl,
    run_two (e := .theta k) (by simp [NExpr.theta, NExpr.Uses]) (by simp [NExpr.theta, NExpr.Uses]) fun _ _ => rfl,
    run_two (e := .dEp k s) (by simp [NExpr.dEp, NExpr.dOmegaUnpol, NExpr.epOverE, NExpr.subst, NExpr.Uses])
      (by simp [NExpr.dEp, NExpr.Uses]) fun _ _ => rfl,
    run_three (e := .dOmega k s) (by simp [NExpr.dOmega, NExpr.epOverE, NExpr.subst, NExpr.Uses]) (by simp [NExpr.dOmega, NExpr.Uses])
      (by simp [NExpr.dOmega, NExpr.Uses]) fun _ _ _ => rfl,
    run_three (e := .dEpdPhi k s) (by simp [NExpr.dEpdPhi, NExpr.dOmega, NExpr.epOverE, NExpr.subst, NExpr.Uses])
      (by simp [NExpr.dEpdPhi, NExpr.Uses]) (by simp [NExpr.dEpdPhi, NExpr.dOmega, NExpr.subst, NExpr.Uses]) fun _ _ _ => rfl⟩

/-- C160: a weighted sum (nested in any way) of cross sections that work entry by entry and of constants: the result at an array of energies of
any shape has this shape, unless there are only constants, and its entries are the weighted sums of the values. -/
theorem C160_sum {S : Set ℝ} {o : NObj} {f : ℝ → ℝ} (h : NSum S o f) (E : Nd) (hE : ∀ i, Valid E.shape i → E.get i ∈ S) :
    ∃ v, o.call E = .ok v ∧ (NVaries o → v.shape = E.shape) ∧ (¬ NVaries o → v.shape = []) ∧
      ∀ i, Valid E.shape i → v.at' i = f (E.get i) := by
  obtain ⟨v, h1, -, h3, h0, h4⟩ := (call_spec h E hE).1
  exact ⟨v, h1, h3, h0, h4⟩

/-- A Breit-Wigner resonance and a constant meet the hypotheses, on arrays with 2 × 3 entries. -/
example : ∃ r p, mkBreitWigner exConst exGround exExcited none = .ok r ∧ (∀ E, r.dist.pdf r.params E = .ok (.fin (p E))) ∧
    ∃ f, NSum Set.univ (.wsum [.leaf fun E => (NExpr.resonance r.ics r.er (.scipyPdf p) true).run ![E], .const 3] [2, 1]) f ∧
      Valid [3, 2] [2, 1] := by
  obtain ⟨r, hr, he, hpar⟩ := exBreitWigner
  obtain ⟨r0, w, h0, hw, rfl⟩ := mkBreitWigner_inv hr
  have hp : ∀ E, Dist.pdf cauchyDist [r0.er, 0.5 * w] E = .ok (.fin (cauchyPdf r0.er (0.5 * w) E)) := by
    intro E
    have : (0.5 : ℝ) * w = 2 := by
      simp only [List.cons.injEq] at hpar
      exact hpar.2.1
    simp [cauchyDist, scipyDist, locScale, this, bind, Except.bind]
  obtain ⟨σ, -, h1⟩ := (C160_classes (r := { r0 with dist := cauchyDist, params := [r0.er, 0.5 * w] }) hp (mkPV 1 1 1) 1 1 id id exConst ⟨1, 1⟩).1 true
  exact ⟨_, _, hr, hp, _, .cons 2 (.leaf h1) (.cons 1 (.const 3) (.empty [])), .cons (by norm_num) (.cons (by norm_num) .nil)⟩

/-- Energies as a column with 4 rows and 5 angles: a common shape is 4 × 5; 4 energies and 5 angles have none. -/
example : (Into [1, 4] [5, 4] ∧ Into [5] [5, 4]) ∧ ¬ ∃ T, Into [4] T ∧ Into [5] T := by
  refine ⟨by simp [Into], ?_⟩
  rintro ⟨T, h1, h2⟩
  cases T with
  | nil => exact h1
  | cons e T => simp only [Into] at h1 h2; omega

/-! ## C161 -/

theorem getD_mem {es : List ℝ} {i : ℕ} (h : i < es.length) : es.getD i 0 ∈ es := by simp [List.getD, h]

theorem valid_align : ∀ {s T i : List ℕ}, Into s T → Valid T i → Valid s (align s i)
  | [], _, _, _, _ => .nil
  | _ :: _, [], _, h, _ => h.elim
  | d :: s, e :: T, _, h, .cons (a := k) h1 h2 => by
    refine .cons ?_ (valid_align h.2 h2)
    rcases h.1 with rfl | rfl
    · simp
    · split
      · omega
      · exact h1

theorem Acts.at_stretched {S : Set ℝ} {p : Nd → Except Err Nd} {f : ℝ → ℝ} (h : Acts S p f) {E : Nd}
    (hE : ∀ i, Valid E.shape i → E.get i ∈ S) :
    ∃ v, p E = .ok v ∧ Into v.shape E.shape ∧ ∀ T i, Into E.shape T → Valid T i → v.at' i = f (E.at' i) := by
  obtain ⟨v, h1, h2, h3⟩ := h E hE
  refine ⟨v, h1, into_of h2, fun T i hT hi => ?_⟩
  have := h3 _ (valid_align hT hi)
  rw [Nd.at', align_align (into_of h2)] at this
  exact this

theorem Into.trans : ∀ {s t u : List ℕ}, Into s t → Into t u → Into s u
  | [], _, _, _, _ => trivial
  | _ :: _, [], _, h, _ => h.elim
  | _ :: _, _ :: _, [], _, h => h.elim
  | _ :: _, _ :: _, _ :: _, h, h' => ⟨by rcases h.1 with h | h <;> rcases h'.1 with h' | h' <;> omega, h.2.trans h'.2⟩

/-- the beam at one depth and energy, for cross sections given as functions -/
def beamOf (σ κ : ℝ → ℝ) : BeamInTarget := ⟨fun E => .ok (σ E), fun E => .ok (κ E)⟩

/-- C161: photon flux and absorption density for arrays of depths and energies of any shapes that can be stretched to a common one: the
result has the smallest such shape and holds the values at the single depths and energies. -/
theorem C161_flux {S : Set ℝ} {b : NdBeam} {σ κ : ℝ → ℝ} (hσ : Pointwise S b.sigma σ) (hκ : Acts S b.kappa κ) (Z E : Nd)
    (hE : ∀ i, Valid E.shape i → E.get i ∈ S) (T : List ℕ) (hZT : Into Z.shape T) (hET : Into E.shape T) :
    (∃ v, b.photonFluxDensity Z E = .ok v ∧ (∀ T', Into v.shape T' ↔ Into Z.shape T' ∧ Into E.shape T') ∧
      ∀ i, Valid v.shape i → (beamOf σ κ).photonFluxDensity (Z.at' i) (E.at' i) = .ok (v.get i)) ∧
    ∃ v, b.resonanceAbsorptionDensity Z E = .ok v ∧ (∀ T', Into v.shape T' ↔ Into Z.shape T' ∧ Into E.shape T') ∧
      ∀ i, Valid v.shape i → (beamOf σ κ).resonanceAbsorptionDensity (Z.at' i) (E.at' i) = .ok (v.get i) := by
  obtain ⟨ks, k1, k2, k3⟩ := hκ.at_stretched hE
  obtain ⟨ss, s1, s2, s3⟩ := hσ.acts.at_stretched hE
  have s4 : ss.shape = E.shape := by
    obtain ⟨v, h1, h2, -⟩ := hσ E hE
    rw [s1] at h1
    rw [Except.ok.inj h1, h2]
  obtain ⟨t, t1, t2, t3⟩ := op2_ok (f := (· + ·)) k2 s2
  have t4 : t.shape = E.shape := shape_ext fun T => by
    rw [t2, s4]
    exact ⟨fun h => h.2, fun h => ⟨k2.trans h, h⟩⟩
  obtain ⟨q, q1, q2, q3⟩ := op2_ok (f := (· * ·)) (a := op1 (fun x => -x) t) (b := Z) (T := T) (by rw [show (op1 _ t).shape = t.shape from rfl, t4]; exact hET) hZT
  have q4 : ∀ T', Into q.shape T' ↔ Into Z.shape T' ∧ Into E.shape T' := fun T' => by
    rw [q2, show (op1 (fun x => -x) t).shape = t.shape from rfl, t4]
    exact and_comm
  have hflux : b.photonFluxDensity Z E = .ok (op1 Real.exp q) := by
    simp only [NdBeam.photonFluxDensity, k1, s1, t1, q1, bind, Except.bind]
  have hval : ∀ T' i, Into E.shape T' → Valid T' i →
      (op1 Real.exp q).at' i = Real.exp (-(κ (E.at' i) + σ (E.at' i)) * Z.at' i) := by
    intro T' i hT hi
    rw [op1_at, q3, op1_at, t3, k3 T' i hT hi, s3 T' i hT hi]
  refine ⟨⟨_, hflux, q4, fun i hi => ?_⟩, ?_⟩
  · rw [← at_valid hi, hval _ i ((q4 _).1 (into_refl _)).2 hi]
    rfl
  · obtain ⟨v, v1, v2, v3⟩ := op2_ok (f := (· * ·)) (a := ss) (b := op1 Real.exp q) (T := T) (by rw [s4]; exact hET)
      ((q4 T).2 ⟨hZT, hET⟩)
    have v4 : ∀ T', Into v.shape T' ↔ Into Z.shape T' ∧ Into E.shape T' := fun T' => by
      rw [v2, s4, show (op1 Real.exp q).shape = q.shape from rfl, q4]
      tauto
    refine ⟨v, by simp only [NdBeam.resonanceAbsorptionDensity, s1, hflux, bind, Except.bind]; exact v1, v4, fun i hi => ?_⟩
    have h := ((v4 _).1 (into_refl _)).2
    rw [← at_valid hi, v3, hval _ i h hi, s3 _ i h hi]
    rfl

theorem into_pair {v : Nd} {n m : ℕ} {P : List ℕ → Prop} (h : ∀ T, Into v.shape T ↔ P T) (h' : ∀ T, P T ↔ Into [n, m] T) :
    v.shape = [n, m] := shape_ext fun T => by rw [h, h']

theorem valid_pair {n m i j : ℕ} (hj : j < n) (hi : i < m) : Valid [n, m] [j, i] := .cons hj (.cons hi .nil)

/-- C161: on the arrays of `np.meshgrid(z, e)`, and equally on `z` and the column `e[:, None]`, photon flux and absorption density are tables
with a row for each energy and a column for each depth. -/
theorem C161_table {S : Set ℝ} {b : NdBeam} {σ κ : ℝ → ℝ} (hσ : Pointwise S b.sigma σ) (hκ : Acts S b.kappa κ) (zs es : List ℝ)
    (hes : ∀ e ∈ es, e ∈ S) (Z E : Nd) (hZE : (Z, E) = meshgrid zs es ∨ Z = vec zs ∧ E = column es) :
    ∃ v w, b.photonFluxDensity Z E = .ok v ∧ b.resonanceAbsorptionDensity Z E = .ok w ∧
      v.shape = [zs.length, es.length] ∧ w.shape = [zs.length, es.length] ∧
      ∀ i (hi : i < es.length) j (hj : j < zs.length),
        (beamOf σ κ).photonFluxDensity zs[j] es[i] = .ok (v.get [j, i]) ∧
        (beamOf σ κ).resonanceAbsorptionDensity zs[j] es[i] = .ok (w.get [j, i]) := by
  have key : (∀ i, Valid E.shape i → E.get i ∈ S) ∧ (∀ T, Into Z.shape T ∧ Into E.shape T ↔ Into [zs.length, es.length] T) ∧
      ∀ i (hi : i < es.length) j (hj : j < zs.length), Z.at' [j, i] = zs[j] ∧ E.at' [j, i] = es[i] := by
    rcases hZE with h | ⟨rfl, rfl⟩
    · obtain ⟨rfl, rfl⟩ := Prod.mk.inj h
      refine ⟨fun i hi => ?_, fun T => and_self_iff, fun i hi j hj => ⟨?_, ?_⟩⟩
      · match i, hi with
        | [j, i], .cons hj (.cons hi .nil) =>
          exact hes _ (getD_mem hi)
      · rw [at_valid (valid_pair hj hi)]
        simp [List.getD, hj]
      · rw [at_valid (valid_pair hj hi)]
        simp [List.getD, hi]
    · refine ⟨fun i hi => ?_, fun T => ?_, fun i hi j hj => ⟨?_, ?_⟩⟩
      · match i, hi with
        | [j, i], .cons hj (.cons hi .nil) =>
          exact hes _ (getD_mem hi)
      · match T with
        | [] => simp [Into, vec]
        | [a] => simp [Into, vec, column]
        | a :: b :: T => simp only [Into, vec, column]; tauto
      · have : (vec zs).at' [j, i] = (vec zs).get [if zs.length = 1 then 0 else j] := rfl
        rw [this, show (if zs.length = 1 then 0 else j) = j by split <;> omega]
        simp [vec, List.getD, hj]
      · have : (column es).at' [j, i] = (column es).get [0, if es.length = 1 then 0 else i] := rfl
        rw [this, show (if es.length = 1 then 0 else i) = i by split <;> omega]
        simp [column, List.getD, hi]
  obtain ⟨hS, hT, hat⟩ := key
  have hT0 := (hT [zs.length, es.length]).2 (into_refl _)
  obtain ⟨⟨v, v1, v2, v3⟩, w, w1, w2, w3⟩ := C161_flux hσ hκ Z E hS _ hT0.1 hT0.2
  have hv := into_pair v2 hT
  have hw := into_pair w2 hT
  refine ⟨v, w, v1, w1, hv, hw, fun i hi j hj => ?_⟩
  obtain ⟨h1, h2⟩ := hat i hi j hj
  have k1 := v3 [j, i] (by rw [hv]; exact valid_pair hj hi)
  have k2 := w3 [j, i] (by rw [hw]; exact valid_pair hj hi)
  rw [h1, h2] at k1 k2
  exact ⟨k1, k2⟩

/-- C161: one-dimensional arrays of different lengths are not combined to a table: `ValueError`, unless one of them has one entry. -/
theorem C161_mismatch {S : Set ℝ} {b : NdBeam} {σ κ : ℝ → ℝ} (hσ : Pointwise S b.sigma σ) (hκ : Acts S b.kappa κ) (zs es : List ℝ)
    (hes : ∀ e ∈ es, e ∈ S) (hne : zs.length ≠ es.length) (hz : zs.length ≠ 1) (he : es.length ≠ 1) :
    b.photonFluxDensity (vec zs) (vec es) = .error .valueError ∧ b.resonanceAbsorptionDensity (vec zs) (vec es) = .error .valueError := by
  have hE : ∀ i, Valid (vec es).shape i → (vec es).get i ∈ S := by
    intro i hi
    match i, hi with
    | [j], .cons hj .nil =>
      exact hes _ (getD_mem hj)
  obtain ⟨ks, k1, k2, k3⟩ := hκ.at_stretched hE
  obtain ⟨ss, s1, s4, -⟩ := hσ _ hE
  obtain ⟨t, t1, t2, t3⟩ := op2_ok (f := (· + ·)) k2 (show Into ss.shape (vec es).shape by rw [s4]; exact into_refl _)
  have t4 : t.shape = [es.length] := shape_ext fun T => by
    rw [t2, s4]
    exact ⟨fun h => h.2, fun h => ⟨k2.trans h, h⟩⟩
  have hno : ¬ ∃ T, Into (op1 (fun x => -x) t).shape T ∧ Into (vec zs).shape T := by
    rintro ⟨T, h1, h2⟩
    rw [show (op1 (fun x => -x) t).shape = t.shape from rfl, t4] at h1
    match T, h1, h2 with
    | [], h1, _ => exact h1
    | a :: T, h1, h2 =>
      simp only [Into, vec] at h1 h2
      omega
  have hf : b.photonFluxDensity (vec zs) (vec es) = .error .valueError := by
    simp only [NdBeam.photonFluxDensity, k1, s1, t1, bind, Except.bind, op2_error hno]
  exact ⟨hf, by simp only [NdBeam.resonanceAbsorptionDensity, s1, hf, bind, Except.bind]⟩

/-- A resonance and a constant, as in the test, meet the hypotheses. -/
example : ∃ (p : ℝ → ℝ) (b : NdBeam), Pointwise Set.univ b.sigma p ∧ Acts Set.univ b.kappa (fun _ => 7) ∧
    b.kappa = fun _ => .ok (.num 7) := by
  refine ⟨_, ⟨fun E => (NExpr.scipyPdf (cauchyPdf 3 1)).run ![E], fun _ => .ok (.num 7)⟩, run_one (.scipyPdf (cauchyPdf 3 1)) rfl _, fun E _ => ?_, rfl⟩
  exact ⟨_, rfl, .inr rfl, fun i _ => rfl⟩

end Ries
