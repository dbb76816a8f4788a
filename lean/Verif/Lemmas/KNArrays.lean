import Verif.Model.KNArrays
import Verif.Spec.KNArrays
import Verif.Lemmas.ArrayClasses

/-! # Expressions over arrays of several variables -/

namespace Ries.Arr

open Ries

variable {ι : Type}

/-- From any store that extends `h0`, the program returns something that shows the values of `g` on the index list, keeps all existing
objects, and the result is an array not older than the call, or a number if `b` is false. -/
def Computes (h0 : Store) (I : List ι) (b : Bool) (m : M AVal) (g : ι → ℝ) : Prop :=
  ∀ h, h0 <+: h → ∃ v h', m h = (.ok v, h') ∧ h <+: h' ∧ Shows h' v (I.map g) ∧ (b = true ↔ ∃ a, v = .ref a)

theorem Computes.pure {h0 : Store} {I : List ι} {v : AVal} {g : ι → ℝ} {b : Bool} (hv : Shows h0 v (I.map g))
    (hb : b = true ↔ ∃ a, v = .ref a) : Computes h0 I b (pure v) g :=
  fun h hh => ⟨v, h, rfl, List.prefix_refl h, hv.mono hh, hb⟩

theorem Computes.lit {h0 : Store} {I : List ι} (c : ℝ) : Computes h0 I false (lit c) fun _ => c :=
  .pure (fun y hy => by obtain ⟨_, _, rfl⟩ := List.mem_map.1 hy; rfl) (by simp)

theorem Computes.bind {h0 : Store} {I : List ι} {b b' : Bool} {m : M AVal} {f : AVal → M AVal} {g g' : ι → ℝ} (hm : Computes h0 I b m g)
    (hf : ∀ v h1, h0 <+: h1 → Shows h1 v (I.map g) → (b = true ↔ ∃ a, v = .ref a) → Computes h1 I b' (f v) g') :
    Computes h0 I b' (m >>= f) g' := by
  intro h hh
  obtain ⟨v, h1, e1, p1, s1, r1⟩ := hm h hh
  obtain ⟨w, h2, e2, p2, s2, r2⟩ := hf v h1 (hh.trans p1) s1 r1 h1 (List.prefix_refl _)
  exact ⟨w, h2, by rw [bind_ok e1, e2], p1.trans p2, s2, r2⟩

theorem getCell_none {h : Store} {a : ℕ} (ha : h[a]? = none) : getCell a h = (.error .attributeError, h) := by
  simp [getCell, ha]

theorem op2_ref {f : ℝ → ℝ → ℝ} {v w u : AVal} {h h' : Store} (e : op2 f v w h = (.ok u, h')) :
    (∃ a, u = .ref a) ↔ (∃ a, v = .ref a) ∨ ∃ a, w = .ref a := by
  cases v with
  | num x =>
    cases w with
    | num y =>
      have : u = .num (f x y) := by
        simp only [op2] at e
        cases e; rfl
      simp [this]
    | ref b =>
      have hu : ∃ a, u = .ref a := by
        rw [op2] at e
        cases hb : h[b]? with
        | none => rw [bind_error (getCell_none hb)] at e; cases e
        | some c =>
          rw [bind_ok (getCell_ok hb)] at e
          cases c with
          | array ys => cases e; exact ⟨_, rfl⟩
          | list ys => cases e
      simp [hu]
  | ref a =>
    have hu : ∃ a, u = .ref a := by
      cases w with
      | num y =>
        rw [op2] at e
        cases hb : h[a]? with
        | none => rw [bind_error (getCell_none hb)] at e; cases e
        | some c =>
          rw [bind_ok (getCell_ok hb)] at e
          cases c with
          | array ys => cases e; exact ⟨_, rfl⟩
          | list ys => cases e
      | ref b =>
        rw [op2] at e
        cases ha : h[a]? with
        | none => rw [bind_error (getCell_none ha)] at e; cases e
        | some c =>
          rw [bind_ok (getCell_ok ha)] at e
          cases hb : h[b]? with
          | none => rw [bind_error (getCell_none hb)] at e; cases e
          | some d =>
            rw [bind_ok (getCell_ok hb)] at e
            have hz : ∀ r : Except Err (List ℝ), allocE r h = (.ok u, h') → ∃ a, u = .ref a := by
              intro r hr
              cases r with
              | error x => cases hr
              | ok xs => cases hr; exact ⟨_, rfl⟩
            cases c with
            | array xs =>
              cases d with
              | array ys => exact hz _ e
              | list ys => exact hz _ e
            | list xs =>
              cases d with
              | array ys => exact hz _ e
              | list ys => cases e
    simp [hu]

theorem op1_ref {f : ℝ → ℝ} {v u : AVal} {h h' : Store} (e : op1 f v h = (.ok u, h')) :
    (∃ a, u = .ref a) ↔ ∃ a, v = .ref a := by
  cases v with
  | num x =>
    have : u = .num (f x) := by
      simp only [op1] at e
      cases e; rfl
    simp [this]
  | ref a =>
    have hu : ∃ a, u = .ref a := by
      rw [op1] at e
      cases ha : h[a]? with
      | none => rw [bind_error (getCell_none ha)] at e; cases e
      | some c =>
        rw [bind_ok (getCell_ok ha)] at e
        cases c <;> (cases e; exact ⟨_, rfl⟩)
    simp [hu]

theorem Computes.lift2 {h0 : Store} {I : List ι} {b b' : Bool} {m n : M AVal} {g g' : ι → ℝ} (hm : Computes h0 I b m g)
    (hn : Computes h0 I b' n g') (f : ℝ → ℝ → ℝ) : Computes h0 I (b || b') (lift2 f m n) fun i => f (g i) (g' i) := by
  intro h hh
  obtain ⟨v, h1, e1, p1, s1, r1⟩ := hm h hh
  obtain ⟨w, h2, e2, p2, s2, r2⟩ := hn h1 (hh.trans p1)
  obtain ⟨u, h3, e3, p3, s3⟩ := good_op2 (s1.mono p2) s2 (by simp) f
  rw [List.zipWith_map, List.zipWith_self] at s3
  refine ⟨u, h3, ?_, (p1.trans p2).trans p3, s3, ?_⟩
  · unfold Arr.lift2
    rw [bind_ok e1, bind_ok e2, e3]
  · rw [op2_ref e3, ← r1, ← r2, Bool.or_eq_true]

theorem Computes.lift1 {h0 : Store} {I : List ι} {b : Bool} {m : M AVal} {g : ι → ℝ} (hm : Computes h0 I b m g) (f : ℝ → ℝ) :
    Computes h0 I b (lift1 f m) fun i => f (g i) := by
  intro h hh
  obtain ⟨v, h1, e1, p1, s1, r1⟩ := hm h hh
  obtain ⟨u, h3, e3, p3, s3⟩ := good_op1 s1 f
  rw [List.map_map] at s3
  refine ⟨u, h3, ?_, p1.trans p3, s3, ?_⟩
  · unfold Arr.lift1
    rw [bind_ok e1, e3]
  · rw [op1_ref e3, ← r1]

theorem Computes.congr {h0 : Store} {I : List ι} {b b' : Bool} {m : M AVal} {g g' : ι → ℝ} (hm : Computes h0 I b m g) (hb : b = b')
    (hg : ∀ i ∈ I, g i = g' i) : Computes h0 I b' m g' := by
  subst hb
  intro h hh
  obtain ⟨v, h', e, p, s, r⟩ := hm h hh
  refine ⟨v, h', e, p, ?_, r⟩
  rwa [List.map_congr_left hg] at s

variable {k : PhysConst} {s : KN} {h0 : Store} {I : List ι}

/-- The value is a number or an array (not a list) that shows `g`. -/
structure Arg (h0 : Store) (I : List ι) (b : Bool) (v : AVal) (g : ι → ℝ) : Prop where
  shows' : Shows h0 v (I.map g)
  isRef : b = true ↔ ∃ a, v = .ref a

theorem Arg.mono {b : Bool} {v : AVal} {g : ι → ℝ} (hv : Arg h0 I b v g) {h1 : Store} (p : h0 <+: h1) : Arg h1 I b v g :=
  ⟨hv.1.mono p, hv.2⟩

theorem Arg.computes {b : Bool} {v : AVal} {g : ι → ℝ} (hv : Arg h0 I b v g) : Computes h0 I b (Pure.pure v) g := .pure hv.1 hv.2

theorem Arg.num (c : ℝ) : Arg h0 I false (.num c) fun _ => c :=
  ⟨fun y hy => by obtain ⟨_, _, rfl⟩ := List.mem_map.1 hy; rfl, by simp⟩

/-- A value that numpy functions accept: a number, an array or a list, showing `t`. -/
def Angle (h0 : Store) (I : List ι) (b : Bool) (v : AVal) (t : ι → ℝ) : Prop :=
  ∀ f : ℝ → ℝ, Computes h0 I b (lift1 f (Pure.pure v)) fun i => f (t i)

theorem Angle.mono {b : Bool} {v : AVal} {g : ι → ℝ} (hv : Angle h0 I b v g) {h1 : Store} (p : h0 <+: h1) : Angle h1 I b v g :=
  fun f h hh => hv f h (p.trans hh)

theorem Arg.angle {b : Bool} {v : AVal} {g : ι → ℝ} (hv : Arg h0 I b v g) : Angle h0 I b v g := fun f => hv.computes.lift1 f

theorem Angle.list {a : ℕ} {t : ι → ℝ} (ha : h0[a]? = some (.list (I.map t))) : Angle h0 I true (.ref a) t := by
  intro f h hh
  obtain ⟨v, h', e, p, s⟩ := good_op1_seq (.inr rfl) (getElem?_of_prefix hh ha) f
  rw [List.map_map] at s
  exact ⟨v, h', e, p, s, by simpa using (op1_ref e).2 ⟨a, rfl⟩⟩

theorem epOverEA_computes {bE bθ : Bool} {E θ : AVal} {e t : ι → ℝ} (hE : Arg h0 I bE E e) (hθ : Angle h0 I bθ θ t) :
    Computes h0 I (bE || bθ) (epOverEA k E θ) fun i => KN.EpOverE k (e i) (t i) :=
  ((Computes.lit 1).lift2 ((Computes.lit 1).lift2 ((hE.computes.lift2 (.lit k.me) _).lift2
    ((Computes.lit 1).lift2 (hθ Real.cos) _) _) _) _).congr (by cases bE <;> cases bθ <;> rfl) fun _ _ => rfl

theorem comptonEdgeA_computes {bE : Bool} {E : AVal} {e : ι → ℝ} (hE : Arg h0 I bE E e) :
    Computes h0 I bE (comptonEdgeA k E) fun i => KN.comptonEdge k (e i) :=
  ((epOverEA_computes hE (Arg.num Real.pi).angle).lift2 hE.computes _).congr (by cases bE <;> rfl) fun _ _ => rfl

theorem thetaA_computes {bE bp : Bool} {E Ep : AVal} {e p : ι → ℝ} (hE : Arg h0 I bE E e) (hp : Arg h0 I bp Ep p) :
    Computes h0 I (bE || bp) (thetaA k E Ep) fun i => KN.theta k (e i) (p i) :=
  (((Computes.lit 1).lift2 (((((hE.computes.lift2 hp.computes (· / ·)).lift2 (.lit 1) (· - ·)).lift2 (.lit k.me) (· * ·)).lift2
    hE.computes (· / ·))) (· - ·)).lift1 Real.arccos).congr (by cases bE <;> cases bp <;> rfl) fun _ _ => rfl

theorem dOmegaA_computes {bE bθ bφ : Bool} {E θ φ : AVal} {e t f : ι → ℝ} (hE : Arg h0 I bE E e) (hθ : Angle h0 I bθ θ t)
    (hφ : Angle h0 I bφ φ f) : Computes h0 I (bE || bθ || bφ) (dOmegaA k s E θ φ) fun i => s.dOmega k (e i) (t i) (f i) := by
  refine Computes.bind (epOverEA_computes hE hθ) fun r h1 p1 sr hr => ?_
  have hr' : Arg h1 I (bE || bθ) r _ := ⟨sr, hr⟩
  have hθ' := hθ.mono p1
  have hφ' := hφ.mono p1
  exact (((((Computes.lit _).lift2 hr'.computes _).lift2 hr'.computes _).lift2
    ((hr'.computes.lift2 ((Computes.lit 1).lift2 hr'.computes _) _).lift2
      (((Computes.lit 2).lift2 ((hθ' Real.sin).lift1 _) _).lift2 ((hφ' Real.cos).lift1 _) _) _) _)).congr
    (by cases bE <;> cases bθ <;> cases bφ <;> rfl) fun _ _ => rfl

theorem dOmegaUnpolA_computes {bE bθ : Bool} {E θ : AVal} {e t : ι → ℝ} (hE : Arg h0 I bE E e) (hθ : Angle h0 I bθ θ t) :
    Computes h0 I (bE || bθ) (dOmegaUnpolA k s E θ) fun i => s.dOmegaUnpol k (e i) (t i) := by
  refine Computes.bind (epOverEA_computes hE hθ) fun r h1 p1 sr hr => ?_
  have hr' : Arg h1 I (bE || bθ) r _ := ⟨sr, hr⟩
  have hθ' := hθ.mono p1
  exact (((((Computes.lit _).lift2 hr'.computes _).lift2 hr'.computes _).lift2
    ((hr'.computes.lift2 ((Computes.lit 1).lift2 hr'.computes _) _).lift2
      ((hθ' Real.sin).lift1 _) _) _)).congr (by cases bE <;> cases bθ <;> rfl) fun _ _ => rfl

theorem dEpdPhiA_computes {bE bp bφ : Bool} {E Ep φ : AVal} {e p f : ι → ℝ} (hE : Arg h0 I bE E e) (hp : Arg h0 I bp Ep p)
    (hφ : Angle h0 I bφ φ f) : Computes h0 I (bE || bp || bφ) (dEpdPhiA k s E Ep φ) fun i => s.dEpdPhi k (e i) (p i) (f i) := by
  have h1 : Computes h0 I (bE || (bE || bp) || bφ) (do let θ ← thetaA k E Ep; dOmegaA k s E θ φ)
      fun i => s.dOmega k (e i) (KN.theta k (e i) (p i)) (f i) :=
    Computes.bind (thetaA_computes hE hp) fun θ h1 p1 st ht => dOmegaA_computes (hE.mono p1) (Arg.angle ⟨st, ht⟩) (hφ.mono p1)
  exact ((h1.lift2 (.lit k.me) _).lift2 (hp.computes.lift2 hp.computes _) _).congr
    (by cases bE <;> cases bp <;> cases bφ <;> rfl) fun _ _ => rfl

theorem dEpA_computes {bE bp : Bool} {E Ep : AVal} {e p : ι → ℝ} (hE : Arg h0 I bE E e) (hp : Arg h0 I bp Ep p) :
    Computes h0 I (bE || bp) (dEpA k s E Ep) fun i => s.dEp k (e i) (p i) := by
  have h1 : Computes h0 I (bE || (bE || bp)) (do let θ ← thetaA k E Ep; dOmegaUnpolA k s E θ)
      fun i => s.dOmegaUnpol k (e i) (KN.theta k (e i) (p i)) :=
    Computes.bind (thetaA_computes hE hp) fun θ h1 p1 st ht => dOmegaUnpolA_computes (hE.mono p1) (Arg.angle ⟨st, ht⟩)
  exact ((h1.lift2 (.lit k.me) _).lift2 (hp.computes.lift2 hp.computes _) _).congr
    (by cases bE <;> cases bp <;> rfl) fun _ _ => rfl

theorem dThetaA_computes {bE bθ : Bool} {E θ : AVal} {e t : ι → ℝ} (hE : Arg h0 I bE E e) (hθ : Angle h0 I bθ θ t) :
    Computes h0 I (bE || bθ) (dThetaA k s E θ) fun i => s.dTheta k (e i) (t i) :=
  ((dOmegaUnpolA_computes hE hθ).lift2 (hθ Real.sin) _).congr (by cases bE <;> cases bθ <;> rfl) fun _ _ => rfl

/-! ## Nothing is changed -/

theorem keeps_lift2 (f : ℝ → ℝ → ℝ) {m n : M AVal} (hm : Keeps m) (hn : Keeps n) : Keeps (lift2 f m n) :=
  keeps_bind hm fun _ => keeps_bind hn fun _ => keeps_op2 _ _ _

theorem keeps_lift1 (f : ℝ → ℝ) {m : M AVal} (hm : Keeps m) : Keeps (lift1 f m) := keeps_bind hm fun _ => keeps_op1 _ _

theorem keeps_lit (c : ℝ) : Keeps (lit c) := keeps_pure _

macro "keep" : tactic => `(tactic| repeat' first
  | exact keeps_pure _
  | exact keeps_lit _
  | apply keeps_lift2
  | apply keeps_lift1)

theorem keeps_epOverEA (E θ : AVal) : Keeps (epOverEA k E θ) := by unfold epOverEA; keep

theorem keeps_thetaA (E θ : AVal) : Keeps (thetaA k E θ) := by unfold thetaA; keep

theorem keeps_dOmegaA (E θ φ : AVal) : Keeps (dOmegaA k s E θ φ) :=
  keeps_bind (keeps_epOverEA E θ) fun _ => by keep

theorem keeps_dOmegaUnpolA (E θ : AVal) : Keeps (dOmegaUnpolA k s E θ) :=
  keeps_bind (keeps_epOverEA E θ) fun _ => by keep

theorem keeps_thetaDOmega (E Ep φ : AVal) : Keeps (do let θ ← thetaA k E Ep; dOmegaA k s E θ φ) :=
  keeps_bind (keeps_thetaA E Ep) fun θ => keeps_dOmegaA E θ φ

theorem keeps_thetaDOmegaUnpol (E Ep : AVal) : Keeps (do let θ ← thetaA k E Ep; dOmegaUnpolA k s E θ) :=
  keeps_bind (keeps_thetaA E Ep) fun θ => keeps_dOmegaUnpolA E θ

theorem lift2_error_left {f : ℝ → ℝ → ℝ} {m n : M AVal} {h h' : Store} {r : Err} (e : m h = (.error r, h')) :
    lift2 f m n h = (.error r, h') := bind_error e

theorem lift2_error_lit {f : ℝ → ℝ → ℝ} {c : ℝ} {n : M AVal} {h h' : Store} {r : Err} (e : n h = (.error r, h')) :
    lift2 f (lit c) n h = (.error r, h') := by
  unfold lift2
  rw [bind_ok (show lit c h = (.ok (.num c), h) from rfl), bind_error e]

theorem lift2_of {f : ℝ → ℝ → ℝ} {m n : M AVal} {h h1 h2 : Store} {v w : AVal} (e1 : m h = (.ok v, h1)) (e2 : n h1 = (.ok w, h2)) :
    lift2 f m n h = op2 f v w h2 := by
  unfold lift2
  rw [bind_ok e1, bind_ok e2]

/-! ## From arguments to results -/

theorem Arg.exists {v : AVal} {g : ι → ℝ} (hv : Shows h0 v (I.map g)) : ∃ b, Arg h0 I b v g := by
  cases v with
  | num c => exact ⟨false, hv, by simp⟩
  | ref a => exact ⟨true, hv, by simp⟩

theorem Angle.exists {v : AVal} {g : ι → ℝ} (hv : ShowsAngle h0 v (I.map g)) : ∃ b, Angle h0 I b v g ∧ (b = true ↔ ∃ a, v = .ref a) := by
  rcases hv with hv | ⟨a, rfl, ha⟩
  · obtain ⟨b, hb⟩ := Arg.exists hv
    exact ⟨b, hb.angle, hb.isRef⟩
  · exact ⟨true, .list ha, by simp⟩

/-- arrays returned by the program are new -/
def ReturnsFresh (m : M AVal) : Prop := ∀ h v h', m h = (.ok v, h') → Fresh h v

theorem fresh_op2 (f : ℝ → ℝ → ℝ) (v w : AVal) : ReturnsFresh (op2 f v w) := fun h u h' e =>
  (stays_op2 (h0 := h) f v w h (List.prefix_refl h)).2 u (by rw [e])

theorem fresh_op1 (f : ℝ → ℝ) (v : AVal) : ReturnsFresh (op1 f v) := by
  intro h u h' e
  cases v with
  | num x => cases e; trivial
  | ref a =>
    rw [op1] at e
    cases ha : h[a]? with
    | none => rw [bind_error (getCell_none ha)] at e; cases e
    | some c =>
      rw [bind_ok (getCell_ok ha)] at e
      cases c <;> (cases e; exact le_rfl)

theorem Fresh.of_prefix {h h' : Store} {v : AVal} (p : h <+: h') (hv : Fresh h' v) : Fresh h v := by
  cases v with
  | num x => trivial
  | ref a => exact p.length_le.trans hv

theorem fresh_bind {m : M AVal} {f : AVal → M AVal} (hm : Keeps m) (hf : ∀ v, ReturnsFresh (f v)) : ReturnsFresh (m >>= f) := by
  intro h v h' e
  have h1 := hm h
  rcases hmh : m h with ⟨r, h''⟩
  rw [hmh] at h1
  cases r with
  | error x => rw [bind_error hmh] at e; cases e
  | ok u =>
    rw [bind_ok hmh] at e
    exact (hf u h'' v h' e).of_prefix h1

theorem fresh_lift2 (f : ℝ → ℝ → ℝ) {m n : M AVal} (hm : Keeps m) (hn : Keeps n) : ReturnsFresh (lift2 f m n) :=
  fresh_bind hm fun _ => fresh_bind hn fun _ => fresh_op2 _ _ _

theorem fresh_lift1 (f : ℝ → ℝ) {m : M AVal} (hm : Keeps m) : ReturnsFresh (lift1 f m) := fresh_bind hm fun _ => fresh_op1 _ _

theorem Computes.entry {b : Bool} {m : M AVal} {g : ι → ℝ} (hm : Computes h0 I b m g) (hf : ReturnsFresh m) {args : List AVal}
    (hb : b = true ↔ ∃ w ∈ args, IsSeq w) : EntryByEntry h0 args m (I.map g) := by
  obtain ⟨v, h', e, p, s, r⟩ := hm h0 (List.prefix_refl h0)
  exact ⟨v, h', e, p, s, hf _ _ _ e, by rw [← hb, r]; rfl⟩

/-! ## Exceptions -/

theorem zipB_mismatch (f : ℝ → ℝ → ℝ) {xs ys : List ℝ} (hne : xs.length ≠ ys.length) (h1 : xs.length ≠ 1) (h2 : ys.length ≠ 1) :
    zipB f xs ys = .error .valueError := by
  unfold zipB
  rw [if_neg hne]
  match xs, ys, hne, h1, h2 with
  | [], [], h, _, _ => exact absurd rfl h
  | [_], _, _, h, _ => exact absurd rfl h
  | _, [_], _, _, h => exact absurd rfl h
  | [], _ :: _ :: _, _, _, _ => rfl
  | _ :: _ :: _, [], _, _, _ => rfl
  | _ :: _ :: _, _ :: _ :: _, _, _, _ => rfl

theorem op2_mismatch (f : ℝ → ℝ → ℝ) {h : Store} {a b : ℕ} {xs ys : List ℝ} (ha : h[a]? = some (.array xs)) (hb : h[b]? = some (.array ys))
    (hne : xs.length ≠ ys.length) (h1 : xs.length ≠ 1) (h2 : ys.length ≠ 1) : op2 f (.ref a) (.ref b) h = (.error .valueError, h) := by
  rw [op2, bind_ok (getCell_ok ha), bind_ok (getCell_ok hb)]
  simp only [zipB_mismatch f hne h1 h2]
  rfl

variable (k)

theorem epOverEA_mismatch {h : Store} {a b : ℕ} {Es ts : List ℝ} (ha : h[a]? = some (.array Es))
    (hb : h[b]? = some (.array ts)) (hne : Es.length ≠ ts.length) (h1 : Es.length ≠ 1) (h2 : ts.length ≠ 1) :
    ∃ h', epOverEA k (.ref a) (.ref b) h = (.error .valueError, h') ∧ h <+: h' := by
  have c1 : Computes h Es true (lift2 (· / ·) (Pure.pure (.ref a)) (Arr.lit k.me)) fun e => e / k.me :=
    (Computes.pure (b := true) (shows_id ha) (by simp)).lift2 (.lit k.me) (· / ·)
  obtain ⟨v, g1, e1, p1, s1, r1⟩ := c1 h (List.prefix_refl h)
  have c2 : Computes g1 ts true (lift2 (· - ·) (Arr.lit 1) (lift1 Real.cos (Pure.pure (.ref b)))) fun t => 1 - Real.cos t :=
    (Computes.lit 1).lift2 ((Computes.pure (b := true) (shows_id (getElem?_of_prefix p1 hb)) (by simp)).lift1 Real.cos) (· - ·)
  obtain ⟨w, g2, e2, p2, s2, r2⟩ := c2 g1 (List.prefix_refl g1)
  obtain ⟨i, rfl⟩ := r1.1 rfl
  obtain ⟨j, rfl⟩ := r2.1 rfl
  refine ⟨g2, ?_, p1.trans p2⟩
  have e3 : op2 (· * ·) (.ref i) (.ref j) g2 = (.error .valueError, g2) :=
    op2_mismatch _ (s1.mono p2) s2 (by simpa using hne) (by simpa using h1) (by simpa using h2)
  exact lift2_error_lit (lift2_error_lit ((lift2_of e1 e2).trans e3))

theorem thetaA_mismatch {h : Store} {a b : ℕ} {Es ts : List ℝ} (ha : h[a]? = some (.array Es))
    (hb : h[b]? = some (.array ts)) (hne : Es.length ≠ ts.length) (h1 : Es.length ≠ 1) (h2 : ts.length ≠ 1) :
    thetaA k (.ref a) (.ref b) h = (.error .valueError, h) := by
  have e0 : lift2 (· / ·) (Pure.pure (.ref a)) (Pure.pure (.ref b)) h = (.error .valueError, h) := op2_mismatch _ ha hb hne h1 h2
  exact bind_error (lift2_error_lit (lift2_error_left (lift2_error_left (lift2_error_left e0))))

theorem op2_list_num (f : ℝ → ℝ → ℝ) {h : Store} {a : ℕ} {xs : List ℝ} (ha : h[a]? = some (.list xs)) (c : ℝ) :
    op2 f (.ref a) (.num c) h = (.error .typeError, h) := by
  rw [op2, bind_ok (getCell_ok ha)]
  rfl

theorem epOverEA_list {h : Store} {a : ℕ} {Es : List ℝ} (ha : h[a]? = some (.list Es)) (θ : AVal) :
    epOverEA k (.ref a) θ h = (.error .typeError, h) := by
  have e0 : lift2 (· / ·) (Pure.pure (.ref a)) (Arr.lit k.me) h = (.error .typeError, h) := op2_list_num _ ha _
  exact lift2_error_lit (lift2_error_lit (lift2_error_left e0))

theorem thetaA_list {h : Store} {a : ℕ} {Es : List ℝ} (ha : h[a]? = some (.list Es)) (Ep : ℝ) :
    thetaA k (.ref a) (.num Ep) h = (.error .typeError, h) := by
  have e0 : lift2 (· / ·) (Pure.pure (.ref a)) (Pure.pure (.num Ep)) h = (.error .typeError, h) := op2_list_num _ ha _
  exact bind_error (lift2_error_lit (lift2_error_left (lift2_error_left (lift2_error_left e0))))

theorem thetaA_list_list {h : Store} {a : ℕ} {Es : List ℝ} (ha : h[a]? = some (.list Es)) :
    thetaA k (.ref a) (.ref a) h = (.error .typeError, h) := by
  have e0 : lift2 (· / ·) (Pure.pure (.ref a)) (Pure.pure (.ref a)) h = (.error .typeError, h) := by
    show op2 (· / ·) (.ref a) (.ref a) h = _
    rw [op2, bind_ok (getCell_ok ha), bind_ok (getCell_ok ha)]
    rfl
  exact bind_error (lift2_error_lit (lift2_error_left (lift2_error_left (lift2_error_left e0))))

end Ries.Arr
