import Verif.Model.Programs
import Verif.Props.Heap
import Verif.Props.CrossSection

/-! # Property C163: programs that calculate with cross sections -/

namespace Ries.Heap

open Ries

/-! ## Specification: names stand for numbers and functions of the energy -/

/-- a number, or a function of the energy (with an exception where it cannot be evaluated) -/
inductive SVal
  | num (x : ℝ)
  | cs (f : ℝ → Except Err ℝ)

/-- value at an energy; a number counts as the constant function -/
def SVal.at : SVal → ℝ → Except Err ℝ
  | .num x, _ => .ok x
  | .cs f, E => f E

/-- sum -/
def SVal.add : SVal → SVal → SVal
  | .num x, .num y => .num (x + y)
  | a, b => .cs fun E => do
      let x ← a.at E
      let y ← b.at E
      .ok (x + y)

/-- product; nothing is claimed about products of two functions -/
def SVal.mul : SVal → SVal → Option SVal
  | .num x, .num y => some (.num (x * y))
  | .num x, .cs f => some (.cs fun E => do let y ← f E; .ok (x * y))
  | .cs f, .num y => some (.cs fun E => do let x ← f E; .ok (y * x))
  | .cs _, .cs _ => none

/-- difference of numbers -/
def SVal.sub : SVal → SVal → Except Err SVal
  | .num x, .num y => .ok (.num (x - y))
  | _, _ => .error .typeError

/-- quotient of numbers -/
noncomputable def SVal.div : SVal → SVal → Except Err SVal
  | .num x, .num y => if y = 0 then .error .zeroDivision else .ok (.num (x / y))
  | _, _ => .error .typeError

/-- negative of a number -/
def SVal.neg : SVal → Except Err SVal
  | .num x => .ok (.num (-x))
  | _ => .error .typeError

/-- what the names mean -/
abbrev SNames := String → Option SVal

/-- The outcome of an evaluation; `none`: two functions are multiplied, nothing is claimed. -/
abbrev Res (α : Type) := Option (Except Err α)

/-- continue unless an exception was raised -/
def Res.andThen {α β : Type} (r : Res α) (f : α → Res β) : Res β :=
  match r with
  | none => none
  | some (.error e) => some (.error e)
  | some (.ok x) => f x

/-- What an expression means. -/
noncomputable def PExpr.den (σ : SNames) : PExpr → Res SVal
  | .lit x => some (.ok (.num x))
  | .name x => match σ x with
    | some s => some (.ok s)
    | none => some (.error .unboundLocal)
  | .add a b => Res.andThen (a.den σ) fun x => Res.andThen (b.den σ) fun y => some (.ok (x.add y))
  | .mul a b => Res.andThen (a.den σ) fun x => Res.andThen (b.den σ) fun y => (x.mul y).map .ok
  | .sub a b => Res.andThen (a.den σ) fun x => Res.andThen (b.den σ) fun y => some (x.sub y)
  | .div a b => Res.andThen (a.den σ) fun x => Res.andThen (b.den σ) fun y => some (x.div y)
  | .neg a => Res.andThen (a.den σ) fun x => some x.neg

/-- What a list of expressions means. -/
noncomputable def denList (σ : SNames) : List PExpr → Res (List SVal)
  | [] => some (.ok [])
  | e :: es => Res.andThen (e.den σ) fun x => Res.andThen (denList σ es) fun xs => some (.ok (x :: xs))

/-- assignment -/
def SNames.set (σ : SNames) (x : String) (s : SVal) : SNames := fun y => if y = x then some s else σ y

/-- `x = result`, or nothing if there was an exception -/
def assignRes (σ : SNames) (x : String) (r : Res SVal) : Option (Except Err Unit × SNames) :=
  r.map fun
    | .ok s => (.ok (), σ.set x s)
    | .error e => (.error e, σ)

/-- repeat for the entries of a list -/
def sloop (x : String) (body : SNames → Option (Except Err Unit × SNames)) : List SVal → SNames → Option (Except Err Unit × SNames)
  | [], σ => some (.ok (), σ)
  | s :: ss, σ => match body (σ.set x s) with
    | some (.ok (), σ') => sloop x body ss σ'
    | o => o

/-- What a statement means: every name has a value of its own, and only the name on the left of an assignment changes. -/
noncomputable def Stmt.den : Stmt → SNames → Option (Except Err Unit × SNames)
  | .skip, σ => some (.ok (), σ)
  | .assign x e, σ => assignRes σ x (e.den σ)
  | .iadd x e, σ => assignRes σ x ((PExpr.add (.name x) e).den σ)
  | .imul x e, σ => assignRes σ x ((PExpr.mul (.name x) e).den σ)
  | .seq p q, σ => match p.den σ with
    | some (.ok (), σ') => q.den σ'
    | o => o
  | .forIn x es p, σ => match denList σ es with
    | none => none
    | some (.error e) => some (.error e, σ)
    | some (.ok ss) => sloop x p.den ss σ
  | .attempt p, σ => (p.den σ).map fun o => (.ok (), o.2)

/-! ## Correspondence -/

/-- the value `v` of the program is the number or the cross section `s` -/
def Rep (h : Store) (v : HVal) : SVal → Prop
  | .num x => v = .num x
  | .cs f => ∃ n o, reify n h v = some o ∧ WF o ∧ ∀ E, value o E = f E

/-- the same names are bound, to values that correspond -/
def Agree (env : Names) (h : Store) (σ : SNames) : Prop := ∀ x, match env x, σ x with
  | none, none => True
  | some v, some s => Rep h v s
  | _, _ => False

theorem Rep.mono {h h' : Store} {v : HVal} {s : SVal} (hx : Ext h h') (hr : Rep h v s) : Rep h' v s := by
  cases s with
  | num x => exact hr
  | cs f =>
    obtain ⟨n, o, h1, h2, h3⟩ := hr
    exact ⟨n, o, reify_mono hx le_rfl h1, h2, h3⟩

theorem Agree.mono {env : Names} {h h' : Store} {σ : SNames} (hx : Ext h h') (ha : Agree env h σ) : Agree env h' σ := by
  intro x
  have := ha x
  revert this
  rcases env x with _ | v <;> rcases σ x with _ | s <;> intro this
  · trivial
  · exact this
  · exact this
  · exact Rep.mono hx this

theorem Agree.bind {env : Names} {h : Store} {σ : SNames} (ha : Agree env h σ) (x : String) {v : HVal} {s : SVal} (hr : Rep h v s) :
    Agree (env.bind x v) h (σ.set x s) := by
  intro y
  by_cases e : y = x
  · simp only [Names.bind, SNames.set, if_pos e]; exact hr
  · simp only [Names.bind, SNames.set, if_neg e]; exact ha y

/-- the kind of the object that is read -/
def SVal.Kind (o : Obj) : SVal → Prop
  | .num x => o = .num x
  | .cs _ => WF o

theorem Rep.reify {h : Store} {v : HVal} {s : SVal} (hr : Rep h v s) :
    ∃ n o, Heap.reify n h v = some o ∧ Operand o ∧ (∀ E, value o E = s.at E) ∧ s.Kind o := by
  cases s with
  | num x => cases hr; exact ⟨1, .num x, rfl, .inl ⟨x, rfl⟩, fun _ => rfl, rfl⟩
  | cs f =>
    obtain ⟨n, o, h1, h2, h3⟩ := hr
    exact ⟨n, o, h1, .inr h2, h3, h2⟩

/-- the outcome of a computation corresponds -/
def Corr (h : Store) (res : Except Err HVal × Store) (r : Except Err SVal) : Prop :=
  Ext h res.2 ∧ match res.1, r with
    | .ok v, .ok s => Rep res.2 v s
    | .error e, .error e' => e = e'
    | _, _ => False

theorem add_corr {h : Store} {a b : HVal} {s t : SVal} (ha : Rep h a s) (hb : Rep h b t) :
    Corr h (add a b h) (.ok (s.add t)) := by
  refine ⟨(Frame.add (n := h.length) a b).ext, ?_⟩
  obtain ⟨n, oa, ra, opa, va, wa⟩ := ha.reify
  obtain ⟨m, ob, rb, opb, vb, wb⟩ := hb.reify
  have key := add_refines (reify_mono (Ext.refl h) (le_max_left n m) ra) (reify_mono (Ext.refl h) (le_max_right n m) rb)
  by_cases hw : WF oa ∨ WF ob
  · obtain ⟨o, e1, e2, e3⟩ := add_spec opa opb hw
    rw [e1] at key
    have hcs : s.add t = .cs (fun E => (do
        let x ← s.at E
        let y ← t.at E
        .ok (x + y))) := by
      cases s <;> cases t
      · cases wa; cases wb; rcases hw with hw | hw <;> exact absurd rfl (hw.not_num _)
      all_goals rfl
    rcases e : add a b h with ⟨er | v, h'⟩
    · rw [e] at key; simp [Refines] at key
    · rw [e] at key
      obtain ⟨o', k1, k2⟩ := key
      cases k1
      simp only [hcs]
      refine ⟨_, o, k2, e2, fun E => ?_⟩
      rw [e3 E, va, vb]
  · cases s with
    | num x => cases t with
      | num y => cases ha; cases hb; exact rfl
      | cs g => exact absurd (.inr wb) hw
    | cs f => exact absurd (.inl wa) hw

theorem mulLoop_congr {t t' : HVal → M HVal} {c : ℝ} (ht : ∀ y h, t (.num y) h = (.ok (.num (c * y)), h))
    (ht' : ∀ y h, t' (.num y) h = (.ok (.num (c * y)), h)) {dr ds s : ℕ} {ss : List HVal}
    (h1 : dr ≠ ds) (h2 : s ≠ dr) (h3 : s ≠ ds) (hss : ∀ x ∈ ss, ∃ y, x = .num y) (rs : List HVal) (i : ℕ) {h : Store} {A B : List HVal}
    (hdr : h[dr]? = some (.list A)) (hds : h[ds]? = some (.list B)) (hs : h[s]? = some (.list ss)) :
    mulLoop t dr ds s rs i h = mulLoop t' dr ds s rs i h := by
  induction rs generalizing i h A B with
  | nil => rfl
  | cons r rs ih =>
    obtain ⟨e1, g1, f1⟩ := append_spec r hdr
    have hs' : (h.set dr (.list (A ++ [r])))[s]? = some (.list ss) := by rw [f1 _ h2, hs]
    have hds' : (h.set dr (.list (A ++ [r])))[ds]? = some (.list B) := by rw [f1 _ h1.symm, hds]
    rw [mulLoop, mulLoop, bind_ok e1, bind_ok e1, bind_ok (getList_spec hs'), bind_ok (getList_spec hs')]
    rcases hi : ss[i]? with _ | x
    · rfl
    · obtain ⟨y, rfl⟩ := hss x (List.mem_of_getElem? hi)
      simp only
      rw [bind_ok (ht y _), bind_ok (ht' y _)]
      obtain ⟨e2, g2, f2⟩ := append_spec (.num (c * y)) hds'
      rw [bind_ok e2, bind_ok e2]
      exact ih (i + 1) (A := A ++ [r]) (B := B ++ [.num (c * y)]) (by rw [f2 _ h1, g1]) g2 (by rw [f2 _ h3, hs'])

theorem objMul_congr {t t' : HVal → M HVal} {c : ℝ} (ht : ∀ y h, t (.num y) h = (.ok (.num (c * y)), h))
    (ht' : ∀ y h, t' (.num y) h = (.ok (.num (c * y)), h)) {n : ℕ} {h : Store} {a : ℕ} {oa : Obj} (ha : reify n h (.ref a) = some oa)
    (hw : WF oa) (other : HVal) : objMul t a other h = objMul t' a other h := by
  rcases reify_readable ha with ⟨l, c1⟩ | ⟨c, c1⟩ | ⟨r, s, rs, ss, c1, c2, c3⟩
  · rw [objMul, objMul, bind_ok (getCell_spec c1), bind_ok (getCell_spec c1)]
  · rw [objMul, objMul, bind_ok (getCell_spec c1), bind_ok (getCell_spec c1)]
  · rw [objMul, objMul, bind_ok (getCell_spec c1), bind_ok (getCell_spec c1)]
    simp only
    obtain ⟨k, rfl⟩ := reify_pos ha
    obtain ⟨rs', ss', ho, f1, f2⟩ := (reify_wsum_iff c1 c2 c3).1 ha
    have hnum : ∀ x ∈ ss, ∃ y, x = .num y := by
      intro x hx
      obtain ⟨i, hi, rfl⟩ := List.getElem_of_mem hx
      have hi' : i < ss'.length := by rw [← f2.length_eq]; exact hi
      have hre := List.Forall₂.get f2 hi hi'
      have hss : ∀ s ∈ ss', ∃ c, s = Obj.num c := by
        subst ho
        cases hw with
        | wsum _ _ _ hs _ => exact hs
      obtain ⟨c, hc⟩ := hss _ (List.getElem_mem hi')
      simp only [List.get_eq_getElem] at hre
      rw [hc] at hre
      cases hxx : ss[i] with
      | num y => exact ⟨y, rfl⟩
      | ref b =>
        rw [hxx] at hre
        exfalso
        rcases reify_readable hre with ⟨l, d1⟩ | ⟨c, d1⟩ | ⟨r, s, rs, ss, d1, d2, d3⟩
        · obtain ⟨k, rfl⟩ := reify_pos hre
          simp [Heap.reify, d1] at hre
        · obtain ⟨k, rfl⟩ := reify_pos hre
          simp [Heap.reify, d1] at hre
        · obtain ⟨k, rfl⟩ := reify_pos hre
          obtain ⟨_, _, h0, -⟩ := (reify_wsum_iff d1 d2 d3).1 hre
          cases h0
    obtain ⟨e1, x1, g1⟩ := alloc_spec (.list []) h
    obtain ⟨e2, x2, g2⟩ := alloc_spec (.list []) (h ++ [.list []])
    rw [wsumMul, wsumMul, bind_ok e1, bind_ok e1, bind_ok e2, bind_ok e2, bind_ok (getList_spec (x2 _ _ (x1 _ _ c2))),
      bind_ok (getList_spec (x2 _ _ (x1 _ _ c2)))]
    have hl := getElem?_lt c3
    rw [bind_def, bind_def, mulLoop_congr ht ht' (by simp) (by omega) (by simp; omega) hnum rs 0 (x2 _ _ g1) g2
      (x2 _ _ (x1 _ _ c3))]

theorem mul_num {k : ℕ} (hk : 1 ≤ k) (c y : ℝ) (h : Store) : mul k (.num c) (.num y) h = (.ok (.num (c * y)), h) := by
  obtain ⟨j, rfl⟩ : ∃ j, k = j + 1 := ⟨k - 1, by omega⟩
  rfl

/-- the recursion limit plays no role for the product of a number and a cross section -/
theorem mul_limit {k l : ℕ} (hk : 2 ≤ k) (hl : 2 ≤ l) {n : ℕ} {h : Store} {a : ℕ} {oa : Obj} (ha : reify n h (.ref a) = some oa) (hw : WF oa)
    (c : ℝ) : mul k (.num c) (.ref a) h = mul l (.num c) (.ref a) h ∧ mul k (.ref a) (.num c) h = mul l (.ref a) (.num c) h := by
  obtain ⟨j, rfl⟩ : ∃ j, k = j + 1 := ⟨k - 1, by omega⟩
  obtain ⟨i, rfl⟩ : ∃ i, l = i + 1 := ⟨l - 1, by omega⟩
  constructor <;> exact objMul_congr (c := c) (fun y h => mul_num (by omega) c y h) (fun y h => mul_num (by omega) c y h) ha hw _

theorem WF.isRef {n : ℕ} {h : Store} {v : HVal} {o : Obj} (hr : reify n h v = some o) (hw : WF o) : ∃ a, v = .ref a := by
  cases v with
  | ref a => exact ⟨a, rfl⟩
  | num x =>
    obtain ⟨k, rfl⟩ := reify_pos hr
    simp [Heap.reify] at hr
    exact absurd hr.symm (hw.not_num x)

theorem mul_corr {k : ℕ} (hk : 2 ≤ k) {h : Store} {a b : HVal} {s t u : SVal} (ha : Rep h a s) (hb : Rep h b t)
    (hu : s.mul t = some u) : Corr h (mul k a b h) (.ok u) := by
  refine ⟨(Frame.mul (n := h.length) k a b).ext, ?_⟩
  have fin : ∀ {f : ℝ → Except Err ℝ} {c : ℝ} {a' : HVal}, Rep h a' (.cs f) →
      ∀ {x y : HVal}, (x = .num c ∧ y = a') ∨ (x = a' ∧ y = .num c) →
      match (mul k x y h).1 with
      | .ok v => Rep (mul k x y h).2 v (.cs fun E => do let z ← f E; .ok (c * z))
      | .error _ => False := by
    intro f c a' hr x y hxy
    obtain ⟨n, o, h1, h2, h3⟩ := hr
    obtain ⟨i, rfl⟩ := WF.isRef h1 h2
    obtain ⟨⟨o1, e1, w1, v1⟩, o2, e2, w2, v2⟩ := mul_spec c h2
    have lim := mul_limit hk (show 2 ≤ n + 2 by omega) h1 h2 c
    have hn1 : Heap.reify 1 h (.num c) = some (.num c) := rfl
    rcases hxy with ⟨rfl, rfl⟩ | ⟨rfl, rfl⟩
    · have key := mul_refines (n + 2) hn1 h1 (by omega)
      rw [← lim.1, e1] at key
      rcases e : mul k (.num c) (.ref i) h with ⟨er | v, h'⟩
      · rw [e] at key; simp [Refines] at key
      · rw [e] at key
        obtain ⟨o', k1, k2⟩ := key
        cases k1
        exact ⟨_, _, k2, w1, fun E => by rw [v1 E, h3]⟩
    · have key := mul_refines (n + 2) h1 hn1 (by omega)
      rw [← lim.2, e2] at key
      rcases e : mul k (.ref i) (.num c) h with ⟨er | v, h'⟩
      · rw [e] at key; simp [Refines] at key
      · rw [e] at key
        obtain ⟨o', k1, k2⟩ := key
        cases k1
        exact ⟨_, _, k2, w2, fun E => by rw [v2 E, h3]⟩
  cases s with
  | num x => cases t with
    | num y =>
      cases ha; cases hb
      simp only [SVal.mul, Option.some.injEq] at hu
      subst hu
      rw [mul_num (by omega)]
      exact rfl
    | cs g =>
      simp only [SVal.mul, Option.some.injEq] at hu
      subst hu
      have := fin (c := x) hb (x := a) (y := b) (.inl ⟨ha, rfl⟩)
      revert this
      rcases (mul k a b h).1 with e | v <;> exact id
  | cs f => cases t with
    | num y =>
      simp only [SVal.mul, Option.some.injEq] at hu
      subst hu
      have := fin (c := y) ha (x := a) (y := b) (.inr ⟨rfl, hb⟩)
      revert this
      rcases (mul k a b h).1 with e | v <;> exact id
    | cs g => simp [SVal.mul] at hu

/-- the outcome corresponds, if something is claimed -/
def Corr? (h : Store) (res : Except Err HVal × Store) : Res SVal → Prop
  | none => True
  | some r => Corr h res r

theorem Corr?.andThen {h : Store} {m : M HVal} {r : Res SVal} {f : HVal → M HVal} {g : SVal → Res SVal} (hm : Corr? h (m h) r)
    (hf : ∀ v s h', Ext h h' → Rep h' v s → Corr? h' (f v h') (g s)) : Corr? h ((m >>= f) h) (Res.andThen r g) := by
  rcases r with _ | er | s
  · trivial
  · obtain ⟨h1, h2⟩ := hm
    rcases e : m h with ⟨er' | v, h'⟩
    · rw [e] at h1 h2
      cases h2
      rw [bind_err e]
      exact ⟨h1, rfl⟩
    · rw [e] at h2; exact h2.elim
  · obtain ⟨h1, h2⟩ := hm
    rcases e : m h with ⟨er' | v, h'⟩
    · rw [e] at h2; exact h2.elim
    · rw [e] at h1 h2
      rw [bind_ok e]
      have := hf v s h' h1 h2
      simp only [Res.andThen]
      rcases hg : g s with _ | r'
      · trivial
      · rw [hg] at this
        exact ⟨h1.trans this.1, this.2⟩

theorem Rep.cs_ref {h : Store} {v : HVal} {f : ℝ → Except Err ℝ} (hr : Rep h v (.cs f)) : ∃ a, v = .ref a := by
  obtain ⟨n, o, h1, h2, -⟩ := hr
  exact WF.isRef h1 h2

theorem sub_corr {h : Store} {a b : HVal} {s t : SVal} (ha : Rep h a s) (hb : Rep h b t) : Corr h (sub a b h) (s.sub t) := by
  cases s with
  | num x => cases ha; cases t with
    | num y => cases hb; exact ⟨Ext.refl h, rfl⟩
    | cs g => obtain ⟨i, rfl⟩ := hb.cs_ref; exact ⟨Ext.refl h, rfl⟩
  | cs f => obtain ⟨i, rfl⟩ := ha.cs_ref; exact ⟨Ext.refl h, rfl⟩

theorem div_corr {h : Store} {a b : HVal} {s t : SVal} (ha : Rep h a s) (hb : Rep h b t) : Corr h (div a b h) (s.div t) := by
  cases s with
  | num x => cases ha; cases t with
    | num y =>
      cases hb
      simp only [div, SVal.div]
      split <;> exact ⟨Ext.refl h, rfl⟩
    | cs g => obtain ⟨i, rfl⟩ := hb.cs_ref; exact ⟨Ext.refl h, rfl⟩
  | cs f => obtain ⟨i, rfl⟩ := ha.cs_ref; exact ⟨Ext.refl h, rfl⟩

theorem neg_corr {h : Store} {a : HVal} {s : SVal} (ha : Rep h a s) : Corr h (neg a h) s.neg := by
  cases s with
  | num x => cases ha; exact ⟨Ext.refl h, rfl⟩
  | cs f => obtain ⟨i, rfl⟩ := ha.cs_ref; exact ⟨Ext.refl h, rfl⟩

theorem mul_corr? {k : ℕ} (hk : 2 ≤ k) {h : Store} {a b : HVal} {s t : SVal} (ha : Rep h a s) (hb : Rep h b t) :
    Corr? h (mul k a b h) ((s.mul t).map .ok) := by
  rcases hu : s.mul t with _ | u
  · trivial
  · exact mul_corr hk ha hb hu

theorem name_corr {k : ℕ} {env : Names} {h : Store} {σ : SNames} (ha : Agree env h σ) (x : String) :
    Corr? h ((PExpr.name x).eval k env h) ((PExpr.name x).den σ) := by
  have := ha x
  simp only [PExpr.eval, PExpr.den]
  revert this
  rcases env x with _ | v <;> rcases σ x with _ | s <;> intro this
  · exact ⟨Ext.refl h, rfl⟩
  · exact this.elim
  · exact this.elim
  · exact ⟨Ext.refl h, this⟩

theorem eval_corr {k : ℕ} (hk : 2 ≤ k) (e : PExpr) : ∀ {env : Names} {h : Store} {σ : SNames}, Agree env h σ →
    Corr? h (e.eval k env h) (e.den σ) := by
  induction e with
  | lit x => intro env h σ _; exact ⟨Ext.refl h, rfl⟩
  | name x => intro env h σ ha; exact name_corr ha x
  | add a b iha ihb =>
    intro env h σ ha
    exact (iha ha).andThen fun v s h1 x1 r1 => (ihb (ha.mono x1)).andThen fun w t h2 x2 r2 => add_corr (r1.mono x2) r2
  | mul a b iha ihb =>
    intro env h σ ha
    exact (iha ha).andThen fun v s h1 x1 r1 => (ihb (ha.mono x1)).andThen fun w t h2 x2 r2 => mul_corr? hk (r1.mono x2) r2
  | sub a b iha ihb =>
    intro env h σ ha
    exact (iha ha).andThen fun v s h1 x1 r1 => (ihb (ha.mono x1)).andThen fun w t h2 x2 r2 => sub_corr (r1.mono x2) r2
  | div a b iha ihb =>
    intro env h σ ha
    exact (iha ha).andThen fun v s h1 x1 r1 => (ihb (ha.mono x1)).andThen fun w t h2 x2 r2 => div_corr (r1.mono x2) r2
  | neg a iha =>
    intro env h σ ha
    exact (iha ha).andThen fun v s h1 x1 r1 => neg_corr r1

theorem evalList_corr {k : ℕ} (hk : 2 ≤ k) (es : List PExpr) {env : Names} {h : Store} {σ : SNames} (ha : Agree env h σ) :
    match denList σ es with
    | none => True
    | some (.ok ss) => ∃ vs h', evalList k env es h = (.ok vs, h') ∧ Ext h h' ∧ List.Forall₂ (Rep h') vs ss
    | some (.error er) => ∃ h', evalList k env es h = (.error er, h') ∧ Ext h h' := by
  induction es generalizing h with
  | nil => exact ⟨[], h, rfl, Ext.refl h, .nil⟩
  | cons e es ih =>
    have h1 := eval_corr hk e ha
    simp only [denList]
    rcases e1 : e.den σ with _ | er | s
    · trivial
    · rw [e1] at h1
      obtain ⟨x1, x2⟩ := h1
      rcases e2 : e.eval k env h with ⟨er' | v, h'⟩
      · rw [e2] at x1 x2
        cases x2
        exact ⟨h', by rw [evalList, bind_err e2], x1⟩
      · rw [e2] at x2; exact x2.elim
    · rw [e1] at h1
      obtain ⟨x1, x2⟩ := h1
      rcases e2 : e.eval k env h with ⟨er' | v, h'⟩
      · rw [e2] at x2; exact x2.elim
      · rw [e2] at x1 x2
        have h2 := ih (ha.mono x1)
        simp only [Res.andThen]
        rcases e3 : denList σ es with _ | er | ss
        · trivial
        · rw [e3] at h2
          obtain ⟨h'', y1, y2⟩ := h2
          exact ⟨h'', by rw [evalList, bind_ok e2, bind_err y1], x1.trans y2⟩
        · rw [e3] at h2
          obtain ⟨vs, h'', y1, y2, y3⟩ := h2
          exact ⟨v :: vs, h'', by rw [evalList, bind_ok e2, bind_ok y1]; rfl, x1.trans y2, .cons (x2.mono y2) y3⟩

/-- the outcome of a statement corresponds -/
def Done (h : Store) (o : Outcome) : Option (Except Err Unit × SNames) → Prop
  | none => True
  | some (r, σ') => o.1 = r ∧ Ext h o.2.2 ∧ Agree o.2.1 o.2.2 σ'

theorem assign_done {h : Store} {env : Names} {σ : SNames} {x : String} (ha : Agree env h σ) {res : Except Err HVal × Store} {r : Res SVal}
    (hr : Corr? h res r) :
    Done h (match (generalizing := false) res with
      | (.ok v, h') => (.ok (), env.bind x v, h')
      | (.error er, h') => (.error er, env, h')) (assignRes σ x r) := by
  obtain ⟨res, h'⟩ := res
  rcases r with _ | er | s
  · trivial
  · obtain ⟨h1, h2⟩ := hr
    rcases res with er' | v
    · cases h2; exact ⟨rfl, h1, ha.mono h1⟩
    · exact h2.elim
  · obtain ⟨h1, h2⟩ := hr
    rcases res with er' | v
    · exact h2.elim
    · exact ⟨rfl, h1, (ha.mono h1).bind x h2⟩

theorem loop_done {x : String} {body : Names → Store → Outcome} {sbody : SNames → Option (Except Err Unit × SNames)}
    (hb : ∀ env h σ, Agree env h σ → Done h (body env h) (sbody σ)) {vs : List HVal} {ss : List SVal} {env : Names} {h : Store} {σ : SNames}
    (ha : Agree env h σ) (hv : List.Forall₂ (Rep h) vs ss) : Done h (loop x body vs env h) (sloop x sbody ss σ) := by
  induction vs generalizing ss env h σ with
  | nil => cases hv; exact ⟨rfl, Ext.refl h, ha⟩
  | cons v vs ih =>
    obtain _ | ⟨h1, h2⟩ := hv
    rename_i s ss
    have h3 := hb _ _ _ (ha.bind x h1)
    simp only [loop, sloop]
    rcases e : sbody (σ.set x s) with _ | ⟨r, σ'⟩
    · trivial
    · rw [e] at h3
      obtain ⟨k1, k2, k3⟩ := h3
      rcases e2 : body (env.bind x v) h with ⟨r', env', h'⟩
      rw [e2] at k1 k2 k3
      cases k1
      rcases r' with er | u
      · exact ⟨rfl, k2, k3⟩
      · have := ih k3 (h2.imp fun _ _ hr => hr.mono k2)
        simp only
        rcases e4 : sloop x sbody ss σ' with _ | ⟨r, σ''⟩
        · trivial
        · rw [e4] at this
          exact ⟨this.1, k2.trans this.2.1, this.2.2⟩

/-- C163: a program that calculates with cross sections (assignments, `+=`, `*=`, loops over lists, `try`) does what it does in mathematics, where
every name stands for a number or a function of the energy and only the name on the left of an assignment changes: it raises the same
exception or none, and afterwards every name refers to the number, or to a cross section with the values of the function. Names that
refer to the same object never influence each other, and no existing object is modified. The recursion limit plays no role. -/
theorem C163_programs {k : ℕ} (hk : 2 ≤ k) (p : Stmt) : ∀ {env : Names} {h : Store} {σ : SNames}, Agree env h σ →
    ∀ {r : Except Err Unit} {σ' : SNames}, p.den σ = some (r, σ') →
      ∃ env' h', p.exec k env h = (r, env', h') ∧ Ext h h' ∧ Agree env' h' σ' := by
  suffices H : ∀ env h σ, Agree env h σ → Done h (p.exec k env h) (p.den σ) by
    intro env h σ ha r σ' e
    have := H env h σ ha
    rw [e] at this
    exact ⟨_, _, by rw [← this.1], this.2.1, this.2.2⟩
  induction p with
  | skip => intro env h σ ha; exact ⟨rfl, Ext.refl h, ha⟩
  | assign x e => intro env h σ ha; exact assign_done ha (eval_corr hk e ha)
  | iadd x e => intro env h σ ha; exact assign_done ha (eval_corr hk (.add (.name x) e) ha)
  | imul x e => intro env h σ ha; exact assign_done ha (eval_corr hk (.mul (.name x) e) ha)
  | seq p q ihp ihq =>
    intro env h σ ha
    have h1 := ihp env h σ ha
    simp only [Stmt.exec, Stmt.den]
    rcases e : p.den σ with _ | ⟨r, σ'⟩
    · trivial
    · rw [e] at h1
      obtain ⟨k1, k2, k3⟩ := h1
      rcases e2 : p.exec k env h with ⟨r', env', h'⟩
      rw [e2] at k1 k2 k3
      cases k1
      rcases r' with er | u
      · exact ⟨rfl, k2, k3⟩
      · have := ihq _ _ _ k3
        simp only
        rcases e4 : q.den σ' with _ | ⟨r, σ''⟩
        · trivial
        · rw [e4] at this
          exact ⟨this.1, k2.trans this.2.1, this.2.2⟩
  | forIn x es p ih =>
    intro env h σ ha
    have h1 := evalList_corr hk es ha
    simp only [Stmt.exec, Stmt.den]
    rcases e : denList σ es with _ | er | ss
    · trivial
    · rw [e] at h1
      obtain ⟨h', y1, y2⟩ := h1
      rw [y1]
      exact ⟨rfl, y2, ha.mono y2⟩
    · rw [e] at h1
      obtain ⟨vs, h', y1, y2, y3⟩ := h1
      rw [y1]
      have := loop_done (x := x) ih (ha.mono y2) y3
      simp only
      rcases e4 : sloop x p.den ss σ with _ | ⟨r, σ''⟩
      · trivial
      · rw [e4] at this
        exact ⟨this.1, y2.trans this.2.1, this.2.2⟩
  | attempt p ih =>
    intro env h σ ha
    have h1 := ih env h σ ha
    simp only [Stmt.exec, Stmt.den]
    rcases e : p.den σ with _ | ⟨r, σ'⟩
    · trivial
    · rw [e] at h1
      exact ⟨rfl, h1.2⟩

/-- the program binds `y` nowhere -/
def Stmt.Keeps (y : String) : Stmt → Prop
  | .skip => True
  | .assign x _ | .iadd x _ | .imul x _ => x ≠ y
  | .seq p q => p.Keeps y ∧ q.Keeps y
  | .forIn x _ p => x ≠ y ∧ p.Keeps y
  | .attempt p => p.Keeps y

theorem eval_ext (k : ℕ) (env : Names) (e : PExpr) (h : Store) : Ext h (e.eval k env h).2 := by
  refine (?_ : ∀ n, Frame n (fun _ => True) (e.eval k env)) h.length |>.ext
  intro n
  have hs : ∀ a b, Frame n (fun _ => True) (sub a b) := fun a b => by
    unfold sub; split
    · exact Frame.pure trivial
    · exact Frame.throw
  have hd : ∀ a b, Frame n (fun _ => True) (div a b) := fun a b => by
    unfold div; split
    · split
      · exact Frame.throw
      · exact Frame.pure trivial
    · exact Frame.throw
  have hn : ∀ a, Frame n (fun _ => True) (neg a) := fun a => by
    unfold neg; split
    · exact Frame.pure trivial
    · exact Frame.throw
  induction e with
  | lit x => exact Frame.pure trivial
  | name x =>
    unfold PExpr.eval
    split
    · exact Frame.pure trivial
    · exact Frame.throw
  | add a b iha ihb => exact iha.bind fun v _ => ihb.bind fun w _ => Frame.add v w
  | mul a b iha ihb => exact iha.bind fun v _ => ihb.bind fun w _ => Frame.mul k v w
  | sub a b iha ihb => exact iha.bind fun v _ => ihb.bind fun w _ => hs v w
  | div a b iha ihb => exact iha.bind fun v _ => ihb.bind fun w _ => hd v w
  | neg a iha => exact iha.bind fun v _ => hn v

theorem evalList_ext (k : ℕ) (env : Names) (es : List PExpr) (h : Store) : Ext h (evalList k env es h).2 := by
  induction es generalizing h with
  | nil => exact Ext.refl h
  | cons e es ih =>
    have h1 := eval_ext k env e h
    rcases e1 : e.eval k env h with ⟨er | v, h'⟩
    · rw [e1] at h1; rw [evalList, bind_err e1]; exact h1
    · rw [e1] at h1
      rw [evalList, bind_ok e1]
      have h2 := ih h'
      rcases e2 : evalList k env es h' with ⟨er | vs, h''⟩
      · rw [e2] at h2; rw [bind_err e2]; exact h1.trans h2
      · rw [e2] at h2; rw [bind_ok e2]; exact h1.trans h2

/-- C163, aliases: whatever a program does (also if it multiplies cross sections or fails), a name that is not on the left of one of its assignments
refers to the same object as before, and no object that existed before has changed, so it has the values it had. -/
theorem C163_alias (k : ℕ) (p : Stmt) (env : Names) (h : Store) : Ext h (p.exec k env h).2.2 ∧
    ∀ y, p.Keeps y → (p.exec k env h).2.1 y = env y ∧
      ∀ v n o, env y = some v → reify n h v = some o → reify n (p.exec k env h).2.2 v = some o := by
  suffices H : ∀ env h, Ext h (p.exec k env h).2.2 ∧ ∀ y, p.Keeps y → (p.exec k env h).2.1 y = env y from
    ⟨(H env h).1, fun y hy => ⟨(H env h).2 y hy, fun v n o _ ho => reify_mono (H env h).1 le_rfl ho⟩⟩
  have asg : ∀ (x : String) (res : Except Err HVal × Store) (env : Names) (h : Store), Ext h res.2 →
      Ext h (match (generalizing := false) res with
        | (.ok v, h') => ((.ok (), env.bind x v, h') : Outcome)
        | (.error er, h') => (.error er, env, h')).2.2 ∧
      ∀ y, x ≠ y → (match (generalizing := false) res with
        | (.ok v, h') => ((.ok (), env.bind x v, h') : Outcome)
        | (.error er, h') => (.error er, env, h')).2.1 y = env y := by
    rintro x ⟨er | v, h'⟩ env h hx
    · exact ⟨hx, fun _ _ => rfl⟩
    · exact ⟨hx, fun y hy => if_neg (Ne.symm hy)⟩
  induction p with
  | skip => intro env h; exact ⟨Ext.refl h, fun _ _ => rfl⟩
  | assign x e => intro env h; exact asg x _ env h (eval_ext k env e h)
  | iadd x e => intro env h; exact asg x _ env h (eval_ext k env (.add (.name x) e) h)
  | imul x e => intro env h; exact asg x _ env h (eval_ext k env (.mul (.name x) e) h)
  | seq p q ihp ihq =>
    intro env h
    have h1 := ihp env h
    simp only [Stmt.exec]
    rcases e : p.exec k env h with ⟨er | u, env', h'⟩
    · rw [e] at h1; exact ⟨h1.1, fun y hy => h1.2 y hy.1⟩
    · rw [e] at h1
      have h2 := ihq env' h'
      exact ⟨h1.1.trans h2.1, fun y hy => (h2.2 y hy.2).trans (h1.2 y hy.1)⟩
  | forIn x es p ih =>
    intro env h
    have h1 := evalList_ext k env es h
    simp only [Stmt.exec]
    rcases e : evalList k env es h with ⟨er | vs, h'⟩
    · rw [e] at h1; exact ⟨h1, fun _ _ => rfl⟩
    · rw [e] at h1
      have h2 : ∀ (vs : List HVal) (env : Names) (h : Store), Ext h (loop x (p.exec k) vs env h).2.2 ∧
          ∀ y, x ≠ y ∧ p.Keeps y → (loop x (p.exec k) vs env h).2.1 y = env y := by
        intro vs
        induction vs with
        | nil => intro env h; exact ⟨Ext.refl h, fun _ _ => rfl⟩
        | cons v vs ihv =>
          intro env h
          have h3 := ih (env.bind x v) h
          simp only [loop]
          have hb : ∀ y, x ≠ y → env.bind x v y = env y := fun y hy => if_neg (Ne.symm hy)
          rcases e : p.exec k (env.bind x v) h with ⟨er | u, env', h'⟩
          · rw [e] at h3; exact ⟨h3.1, fun y hy => (h3.2 y hy.2).trans (hb y hy.1)⟩
          · rw [e] at h3
            have h4 := ihv env' h'
            exact ⟨h3.1.trans h4.1, fun y hy => (h4.2 y hy).trans ((h3.2 y hy.2).trans (hb y hy.1))⟩
      exact ⟨h1.trans (h2 vs env h').1, (h2 vs env h').2⟩
  | attempt p ih => intro env h; exact ih env h

/-- `t = 0` / `for s in [x, y, ...]: t += s` -/
def accumulate (t s : String) (xs : List String) : Stmt :=
  .seq (.assign t (.lit 0)) (.forIn s (xs.map .name) (.iadd t (.name s)))

theorem SVal.add_at (a b : SVal) (E x y : ℝ) (hx : a.at E = .ok x) (hy : b.at E = .ok y) : (a.add b).at E = .ok (x + y) := by
  cases a <;> cases b
  · cases hx; cases hy; rfl
  all_goals
    simp only [SVal.add]
    show (do
      let x ← _
      let y ← _
      Except.ok (x + y)) = _
    rw [hx, hy]; rfl

/-- C163, the usual loop: adding up cross sections with `+=`, beginning with the number 0, gives the sum of their values. -/
theorem C163_accumulate {k : ℕ} (hk : 2 ≤ k) {env : Names} {h : Store} {σ : SNames} (ha : Agree env h σ) {t s : String} (hts : t ≠ s)
    {xs : List String} {ss : List SVal} (hxs : List.Forall₂ (fun x v => σ x = some v ∧ x ≠ t) xs ss) :
    ∃ env' h' v S, (accumulate t s xs).exec k env h = (.ok (), env', h') ∧ env' t = some v ∧ Rep h' v S ∧
      ∀ E ys, List.Forall₂ (fun (a : SVal) y => a.at E = .ok y) ss ys → S.at E = .ok ys.sum := by
  have hd : ∀ τ : SNames, (∀ x ∈ xs, τ x = σ x) → denList τ (xs.map .name) = some (.ok ss) := by
    intro τ hτ
    induction hxs with
    | nil => rfl
    | @cons x v xs ss hx _ ih =>
      have h1 := ih fun x hx => hτ x (by simp [hx])
      simp only [List.map_cons, denList, PExpr.den, hτ x (by simp), hx.1, h1, Res.andThen]
  have hl : ∀ (ss : List SVal) (τ : SNames) (a : SVal), τ t = some a →
      ∃ τ' S, sloop s (Stmt.iadd t (.name s)).den ss τ = some (.ok (), τ') ∧ τ' t = some S ∧
        ∀ E x ys, a.at E = .ok x → List.Forall₂ (fun (a : SVal) y => a.at E = .ok y) ss ys → S.at E = .ok (x + ys.sum) := by
    intro ss
    induction ss with
    | nil => intro τ a h1; exact ⟨τ, a, rfl, h1, fun E x ys hx hy => by cases hy; simpa using hx⟩
    | cons b ss ih =>
      intro τ a h1
      have e1 : (Stmt.iadd t (.name s)).den (τ.set s b) = some (.ok (), (τ.set s b).set t (a.add b)) := by
        have e2 : (τ.set s b) t = some a := by simp only [SNames.set, if_neg hts]; exact h1
        have e3 : (τ.set s b) s = some b := by simp [SNames.set]
        simp [Stmt.den, assignRes, PExpr.den, e2, e3, Res.andThen]
      obtain ⟨τ', S, k1, k2, k3⟩ := ih ((τ.set s b).set t (a.add b)) (a.add b) (by simp [SNames.set])
      refine ⟨τ', S, by simp only [sloop, e1]; exact k1, k2, fun E x ys hx hy => ?_⟩
      obtain _ | ⟨hb, hy⟩ := hy
      rename_i y ys
      rw [k3 E (x + y) ys (SVal.add_at a b E x y hx hb) hy, List.sum_cons, add_assoc]
  obtain ⟨τ', S, k1, k2, k3⟩ := hl ss (σ.set t (.num 0)) (.num 0) (by simp [SNames.set])
  have hden : (accumulate t s xs).den σ = some (.ok (), τ') := by
    have hn : ∀ x ∈ xs, x ≠ t := by
      intro x hx
      obtain ⟨i, hi, rfl⟩ := List.getElem_of_mem hx
      exact (List.Forall₂.get hxs hi (by rw [← hxs.length_eq]; exact hi)).2
    simp only [accumulate, Stmt.den, PExpr.den, assignRes, Option.map_some,
      hd (σ.set t (.num 0)) fun x hx => by simp only [SNames.set, if_neg (hn x hx)]]
    exact k1
  obtain ⟨env', h', e1, -, e3⟩ := C163_programs hk (accumulate t s xs) ha hden
  have := e3 t
  rw [k2] at this
  rcases e : env' t with _ | v
  · rw [e] at this; exact this.elim
  · rw [e] at this
    refine ⟨env', h', v, S, e1, e, this, fun E ys hy => ?_⟩
    rw [k3 E 0 ys rfl hy, zero_add]

/-- C163, differences: `x - y` raises `TypeError` and changes nothing if `x` or `y` is a cross section; `x + (-1) * y` is the difference. -/
theorem C163_difference {k : ℕ} (hk : 2 ≤ k) {env : Names} {h : Store} {σ : SNames} (ha : Agree env h σ) {w x y : String} {a b : SVal}
    (hx : σ x = some a) (hy : σ y = some b) (hab : ¬ ∃ c d, a = .num c ∧ b = .num d) :
    (Stmt.assign w (.sub (.name x) (.name y))).exec k env h = (.error .typeError, env, h) ∧
    ∃ env' h' v f, (Stmt.assign w (.add (.name x) (.mul (.lit (-1)) (.name y)))).exec k env h = (.ok (), env', h') ∧
      env' w = some v ∧ Rep h' v (.cs f) ∧ ∀ E p q, a.at E = .ok p → b.at E = .ok q → f E = .ok (p - q) := by
  constructor
  · have h1 := ha x
    have h2 := ha y
    rw [hx] at h1
    rw [hy] at h2
    rcases e1 : env x with _ | v
    · rw [e1] at h1; exact h1.elim
    rcases e2 : env y with _ | u
    · rw [e2] at h2; exact h2.elim
    rw [e1] at h1
    rw [e2] at h2
    have : sub v u h = (.error .typeError, h) := by
      cases a with
      | num c => cases b with
        | num d => exact absurd ⟨c, d, rfl, rfl⟩ hab
        | cs g => obtain ⟨i, rfl⟩ := Rep.cs_ref h2; cases v <;> rfl
      | cs f => obtain ⟨i, rfl⟩ := Rep.cs_ref h1; rfl
    simp [Stmt.exec, PExpr.eval, e1, e2, bind_def, pure_def, this]
  · obtain ⟨m, hm, hmv⟩ : ∃ m, (SVal.num (-1)).mul b = some m ∧ ∀ E q, b.at E = .ok q → m.at E = .ok (-q) := by
      cases b with
      | num d => exact ⟨_, rfl, fun E q hq => by cases hq; simp [SVal.at]⟩
      | cs g => exact ⟨_, rfl, fun E q hq => by
          have : g E = .ok q := hq
          simp [SVal.at, this, bind, Except.bind]⟩
    have hf : ∃ f, a.add m = .cs f := by
      cases a with
      | num c => cases b with
        | num d => exact absurd ⟨c, d, rfl, rfl⟩ hab
        | cs g =>
          simp only [SVal.mul, Option.some.injEq] at hm
          subst hm
          exact ⟨_, rfl⟩
      | cs f => cases m <;> exact ⟨_, rfl⟩
    obtain ⟨f, hf⟩ := hf
    have hden : (Stmt.assign w (.add (.name x) (.mul (.lit (-1)) (.name y)))).den σ = some (.ok (), σ.set w (.cs f)) := by
      simp [Stmt.den, PExpr.den, hx, hy, Res.andThen, assignRes, hm, hf]
    obtain ⟨env', h', e1, -, e3⟩ := C163_programs hk _ ha hden
    have := e3 w
    simp only [SNames.set, if_true] at this
    rcases e : env' w with _ | v
    · rw [e] at this; exact this.elim
    · rw [e] at this
      refine ⟨env', h', v, f, e1, e, this, fun E p q hp hq => ?_⟩
      have := SVal.add_at a m E p (-q) hp (hmv E q hq)
      rw [hf] at this
      rw [sub_eq_add_neg]
      exact this

/-- a program with a resonance, a number, and a second name for a sum: the names agree, and the meaning of the program is defined -/
example : ∃ (env : Names) (σ : SNames) (p : Stmt) (r : Except Err Unit) (σ' : SNames), Agree env exStore σ ∧ p.den σ = some (r, σ') ∧
    (∃ f, σ' "a" = some (.cs f) ∧ f 0 = .ok 4) ∧ (∃ f, σ' "b" = some (.cs f) ∧ f 0 = .ok 1) := by
  refine ⟨fun x => if x = "a" then some (.ref 3) else none, fun x => if x = "a" then some (.cs fun _ => .ok 1) else none,
    .seq (.assign "b" (.name "a")) (.seq (.iadd "a" (.lit 1)) (.seq (.imul "a" (.lit 2)) (.attempt (.assign "a" (.neg (.name "a")))))),
    _, _, fun x => ?_, by simp [Stmt.den, assignRes, PExpr.den, Res.andThen, SNames.set, SVal.add, SVal.mul, SVal.neg]; exact ⟨rfl, rfl⟩, ?_, ?_⟩
  · by_cases hx : x = "a"
    · simp only [hx, if_true]
      refine ⟨2, .wsum [.const 1] [.num 1], by simp [reify, exStore], .wsum _ _ (by simp [WF.const]) (by simp) (by simp), fun E => ?_⟩
      simp [value, Obj.call, Obj.callLoop, Obj.mul, Obj.add, bind, Except.bind]
    · simp [hx]
  · simp [SNames.set, SVal.at, bind, Except.bind]; norm_num
  · simp [SNames.set]

end Ries.Heap
