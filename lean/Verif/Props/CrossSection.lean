import Verif.Lemmas.CrossSection

/-! # C01–C03, C06–C09: arithmetic and evaluation of cross sections -/

namespace Ries
open Obj

/-- Example leaf used in satisfiability examples: `σ(E) = E`. -/
def exLeaf : Leaf := ⟨fun E => .ok E, fun _ _ => .ok []⟩

/-! ## C01 -/

/-- C01: `a + b` succeeds, is a cross section, and its call at `E` returns the number `a(E) + b(E)`;
if evaluating an operand raises, evaluating the sum raises (the exception of the leftmost operand
that raises). -/
theorem C01_sum_evaluates_to_sum (a b : Obj) (ha : Operand a) (hb : Operand b)
    (hab : ¬ (a.isNum = true ∧ b.isNum = true)) :
    ∃ s, add a b = .ok s ∧ WF s ∧
      ∀ E, s.call E = (do let x ← value a E; let y ← value b E; .ok (.num (x + y))) := by
  have hab' : WF a ∨ WF b := by
    rcases ha with ⟨c, rfl⟩ | ha
    · rcases hb with ⟨d, rfl⟩ | hb
      · simp [isNum] at hab
      · exact .inr hb
    · exact .inl ha
  obtain ⟨s, h1, h2, h3⟩ := add_spec ha hb hab'
  refine ⟨s, h1, h2, fun E => ?_⟩
  rw [call_eq_value s h2, h3]
  cases value a E with
  | error e => rfl
  | ok x => cases value b E <;> rfl

/-- C01, hypotheses are met by a number plus a nested weighted sum, and the value is as expected. -/
example : ∃ s, add (.num 2) (.wsum [.leaf exLeaf, .const 5] [.num 3, .num 1]) = .ok s ∧
    s.call 7 = .ok (.num 28) := by
  have hw : WF (.wsum [.leaf exLeaf, .const 5] [.num 3, .num 1]) := by
    refine .wsum _ _ ?_ ?_ (by simp)
    · intro r h; simp at h; rcases h with rfl | rfl
      · exact .leaf _
      · exact .const _
    · intro r h; simp at h; rcases h with rfl | rfl <;> exact ⟨_, rfl⟩
  obtain ⟨s, h1, _, h3⟩ := C01_sum_evaluates_to_sum (.num 2) _ (.inl ⟨2, rfl⟩) (.inr hw) (by simp [isNum])
  refine ⟨s, h1, ?_⟩
  rw [h3, value_wsum hw]
  simp [wval, value, call, exLeaf, bind, Except.bind, Except.map]
  norm_num

/-! ## C02 -/

/-- C02: scaling from either side multiplies every value by the factor. -/
theorem C02_scaling (a : Obj) (c : ℝ) (ha : WF a) :
    (∃ s, mul (.num c) a = .ok s ∧ WF s ∧
      ∀ E, s.call E = (do let x ← value a E; .ok (.num (c * x)))) ∧
    (∃ s, mul a (.num c) = .ok s ∧ WF s ∧
      ∀ E, s.call E = (do let x ← value a E; .ok (.num (c * x)))) := by
  obtain ⟨⟨s, h1, h2, h3⟩, ⟨t, h4, h5, h6⟩⟩ := mul_spec c ha
  refine ⟨⟨s, h1, h2, fun E => ?_⟩, ⟨t, h4, h5, fun E => ?_⟩⟩
  · rw [call_eq_value s h2, h3]; cases value a E <;> rfl
  · rw [call_eq_value t h5, h6]; cases value a E <;> rfl

example : ∃ s, mul (.wsum [.leaf exLeaf, .const 5] [.num 3, .num 1]) (.num 2) = .ok s ∧
    s.call 7 = .ok (.num 52) := by
  refine ⟨_, by simp [mul, mulLoop, bind, Except.bind, Except.map]; rfl, ?_⟩
  simp [call, callLoop, mul, add, exLeaf, bind, Except.bind, Except.map]; norm_num

/-! ## C03 -/

theorem HasTy.operand {o : Obj} {t : Ty} (h : HasTy o t) : Operand o := by
  cases t
  · exact .inl h
  · exact .inr h

theorem add_hasTy {a b : Obj} {s t : Ty} (ha : HasTy a s) (hb : HasTy b t) :
    ∃ o, add a b = .ok o ∧ HasTy o (s.join t) ∧
      ∀ E, value o E = (do let x ← value a E; let y ← value b E; .ok (x + y)) := by
  cases s with
  | num =>
    cases t with
    | num =>
      obtain ⟨c, rfl⟩ := ha; obtain ⟨d, rfl⟩ := hb
      exact ⟨.num (c + d), rfl, ⟨_, rfl⟩, fun E => rfl⟩
    | cs => exact add_spec ha.operand hb.operand (.inr hb)
  | cs => cases t <;> exact add_spec ha.operand hb.operand (.inl ha)

theorem foldlM_add (xs : List Expr) (t : Ty)
    (ih : ∀ x ∈ xs, ∀ t, x.ty = some t → ∃ o, x.run = .ok o ∧ HasTy o t ∧ ∀ E, value o E = x.den E)
    (h : Expr.tys xs = some t) : ∀ (o : Obj) (s : Ty), HasTy o s →
    ∃ os, Expr.runs xs = .ok os ∧ ∃ r, os.foldlM add o = .ok r ∧ HasTy r (s.join t) ∧
      ∀ E, value r E = (do let x ← value o E; let y ← Expr.dens E xs; .ok (x + y)) := by
  induction xs generalizing t with
  | nil =>
    intro o s ho
    simp [Expr.tys] at h; subst h
    refine ⟨[], rfl, o, rfl, ?_, fun E => ?_⟩
    · cases s <;> exact ho
    · simp only [Expr.dens]; cases value o E <;> simp [bind, Except.bind]
  | cons x xs IH =>
    intro o s ho
    simp only [Expr.tys] at h
    obtain ⟨tx, hx, h⟩ := Option.bind_eq_some_iff.1 h
    obtain ⟨txs, hxs, h⟩ := Option.bind_eq_some_iff.1 h
    simp at h; subst h
    obtain ⟨ox, hrun, hty, hval⟩ := ih x (by simp) tx hx
    obtain ⟨o', ha, hty', hval'⟩ := add_hasTy ho hty
    obtain ⟨os, hruns, r, hfold, htr, hvr⟩ :=
      IH txs (fun y hy => ih y (by simp [hy])) hxs o' _ hty'
    refine ⟨ox :: os, ?_, r, ?_, ?_, fun E => ?_⟩
    · simp [Expr.runs, hrun, hruns, bind, Except.bind]
    · simp only [List.foldlM, ha]; exact hfold
    · cases s <;> cases tx <;> cases txs <;> exact htr
    · rw [hvr, hval', hval]
      simp only [Expr.dens]
      cases value o E with
      | error e => rfl
      | ok v => cases x.den E with
        | error e => rfl
        | ok w => cases Expr.dens E xs with
          | error e => rfl
          | ok u => simp [bind, Except.bind]; ring

/-- C03: every expression built from cross sections and numbers by `+`, scalar `*` and built-in
`sum` runs without error, gives a number respectively a cross section, and evaluates at every energy
to the number obtained by replacing every cross section by its value. -/
theorem C03_expression_compositional : ∀ (e : Expr) (t : Ty), e.ty = some t →
    ∃ o, e.run = .ok o ∧ HasTy o t ∧ ∀ E, value o E = e.den E
  | .num c, t, h => by
      simp [Expr.ty] at h; subst h
      exact ⟨_, by simp [Expr.run], ⟨c, rfl⟩, fun E => by simp [Expr.den, value]⟩
  | .atom l, t, h => by
      simp [Expr.ty] at h; subst h
      refine ⟨.leaf l, by simp [Expr.run], .leaf l, fun E => ?_⟩
      simp only [value, call, Expr.den]; cases l.eval E <;> rfl
  | .const c, t, h => by
      simp [Expr.ty] at h; subst h
      exact ⟨_, by simp [Expr.run], .const c, fun E => by simp [Expr.den, value, call]⟩
  | .add a b, t, h => by
      simp only [Expr.ty] at h
      obtain ⟨s1, h1, h⟩ := Option.bind_eq_some_iff.1 h
      obtain ⟨s2, h2, h⟩ := Option.bind_eq_some_iff.1 h
      simp at h; subst h
      obtain ⟨oa, ra, ta, va⟩ := C03_expression_compositional a s1 h1
      obtain ⟨ob, rb, tb, vb⟩ := C03_expression_compositional b s2 h2
      obtain ⟨o, hadd, hty, hval⟩ := add_hasTy ta tb
      refine ⟨o, by simp [Expr.run, ra, rb, bind, Except.bind, hadd], hty, fun E => ?_⟩
      rw [hval, va, vb]; simp only [Expr.den]
  | .mul a b, t, h => by
      simp only [Expr.ty] at h
      obtain ⟨s1, h1, h⟩ := Option.bind_eq_some_iff.1 h
      obtain ⟨s2, h2, h⟩ := Option.bind_eq_some_iff.1 h
      obtain ⟨oa, ra, ta, va⟩ := C03_expression_compositional a s1 h1
      obtain ⟨ob, rb, tb, vb⟩ := C03_expression_compositional b s2 h2
      cases s1 with
      | num =>
        obtain ⟨c, rfl⟩ := ta
        cases s2 with
        | num =>
          obtain ⟨d, rfl⟩ := tb
          simp [Ty.join] at h; subst h
          refine ⟨.num (c * d), by simp [Expr.run, ra, rb, bind, Except.bind, mul], ⟨_, rfl⟩, fun E => ?_⟩
          simp only [Expr.den, ← va, ← vb]; rfl
        | cs =>
          simp [Ty.join] at h; subst h
          obtain ⟨o, h1, h2, h3⟩ := (mul_spec c tb).1
          refine ⟨o, by simp [Expr.run, ra, rb, bind, Except.bind, h1], h2, fun E => ?_⟩
          simp only [Expr.den, ← va, ← vb, h3]; rfl
      | cs =>
        cases s2 with
        | num =>
          obtain ⟨d, rfl⟩ := tb
          simp [Ty.join] at h; subst h
          obtain ⟨o, h1, h2, h3⟩ := (mul_spec d ta).2
          refine ⟨o, by simp [Expr.run, ra, rb, bind, Except.bind, h1], h2, fun E => ?_⟩
          simp only [Expr.den, ← va, ← vb, h3, value_num]
          cases value oa E with
          | error e => rfl
          | ok v => simp [bind, Except.bind]; ring
        | cs => simp at h
  | .sum xs, t, h => by
      simp only [Expr.ty] at h
      obtain ⟨os, h1, r, h2, h3, h4⟩ := foldlM_add xs t
        (fun x hx t ht => C03_expression_compositional x t ht) h (.num 0) .num ⟨0, rfl⟩
      refine ⟨r, by simp [Expr.run, h1, pySum, bind, Except.bind, h2], by cases t <;> exact h3, fun E => ?_⟩
      rw [h4, value_num]; simp only [Expr.den]
      cases Expr.dens E xs <;> simp [bind, Except.bind]

/-- two expressions run without error, and at `E` the resulting objects have the same value, which is a number -/
def SameValue (e₁ e₂ : Expr) (E : ℝ) : Prop :=
  ∃ o₁ o₂ v, e₁.run = .ok o₁ ∧ e₂.run = .ok o₂ ∧ value o₁ E = .ok v ∧ value o₂ E = .ok v

/-- C03, algebraic laws: commutativity, associativity and distributivity hold for the values of the objects that are built, for
operands that can be evaluated at the energy. -/
theorem C03_laws {a b c : Expr} {s t r : Ty} (ha : a.ty = some s) (hb : b.ty = some t) (hc : c.ty = some r) (E x y z k : ℝ)
    (va : ∀ o, a.run = .ok o → value o E = .ok x) (vb : ∀ o, b.run = .ok o → value o E = .ok y)
    (vc : ∀ o, c.run = .ok o → value o E = .ok z) :
    SameValue (.add a b) (.add b a) E ∧
    SameValue (.add (.add a b) c) (.add a (.add b c)) E ∧
    SameValue (.mul (.num k) (.add a b)) (.add (.mul (.num k) a) (.mul (.num k) b)) E ∧
    SameValue (.mul (.add a b) (.num k)) (.add (.mul (.num k) a) (.mul (.num k) b)) E ∧
    SameValue (.sum [a, b, c]) (.add a (.add b c)) E := by
  obtain ⟨oa, ra, -, da⟩ := C03_expression_compositional a s ha
  obtain ⟨ob, rb, -, db⟩ := C03_expression_compositional b t hb
  obtain ⟨oc, rc, -, dc⟩ := C03_expression_compositional c r hc
  have da : a.den E = .ok x := by rw [← da, va oa ra]
  have db : b.den E = .ok y := by rw [← db, vb ob rb]
  have dc : c.den E = .ok z := by rw [← dc, vc oc rc]
  have same : ∀ {e₁ e₂ : Expr} {v : ℝ}, (∃ t, e₁.ty = some t) → (∃ t, e₂.ty = some t) → e₁.den E = .ok v →
      e₂.den E = .ok v → SameValue e₁ e₂ E := by
    rintro e₁ e₂ v ⟨t₁, h₁⟩ ⟨t₂, h₂⟩ d₁ d₂
    obtain ⟨o₁, r₁, -, w₁⟩ := C03_expression_compositional e₁ t₁ h₁
    obtain ⟨o₂, r₂, -, w₂⟩ := C03_expression_compositional e₂ t₂ h₂
    exact ⟨o₁, o₂, v, r₁, r₂, by rw [w₁, d₁], by rw [w₂, d₂]⟩
  have ty : ∀ e : Expr, e ∈ [.add a b, .add b a, .add (.add a b) c, .add a (.add b c), .mul (.num k) (.add a b),
      .add (.mul (.num k) a) (.mul (.num k) b), .mul (.add a b) (.num k), .sum [a, b, c]] → ∃ t, e.ty = some t := by
    intro e he
    simp only [List.mem_cons, List.not_mem_nil, or_false] at he
    rcases he with rfl | rfl | rfl | rfl | rfl | rfl | rfl | rfl <;>
      cases s <;> cases t <;> cases r <;> simp [Expr.ty, Expr.tys, Ty.join, ha, hb, hc]
  refine ⟨same (v := x + y) (ty _ (by simp)) (ty _ (by simp)) ?_ ?_, same (v := x + y + z) (ty _ (by simp)) (ty _ (by simp)) ?_ ?_,
    same (v := k * (x + y)) (ty _ (by simp)) (ty _ (by simp)) ?_ ?_, same (v := k * (x + y)) (ty _ (by simp)) (ty _ (by simp)) ?_ ?_,
    same (v := x + y + z) (ty _ (by simp)) (ty _ (by simp)) ?_ ?_⟩
  all_goals
    simp only [Expr.den, Expr.dens, da, db, dc, bind, Except.bind, Except.ok.injEq]
    try ring

/-- C03: a non-trivial expression, `sum([2*σ, (σ + 1)*3])`, meets the typing hypothesis. -/
example : (Expr.sum [.mul (.num 2) (.atom exLeaf), .mul (.add (.atom exLeaf) (.num 1)) (.num 3)]).ty
      = some .cs ∧
    (Expr.sum [.mul (.num 2) (.atom exLeaf), .mul (.add (.atom exLeaf) (.num 1)) (.num 3)]).den 4
      = .ok 23 := by
  constructor
  · simp [Expr.ty, Expr.tys, Ty.join]
  · simp [Expr.den, Expr.dens, exLeaf, bind, Except.bind]; norm_num

/-- C03: the laws apply to a sum of a cross section and a constant -/
example : SameValue (.mul (.num 3) (.add (.atom exLeaf) (.const 2)))
    (.add (.mul (.num 3) (.atom exLeaf)) (.mul (.num 3) (.const 2))) 4 :=
  (C03_laws (a := .atom exLeaf) (b := .const 2) (c := .num 0) rfl rfl rfl 4 4 2 0 3
    (by rintro o ⟨⟩; simp [value, call, exLeaf, Except.map]) (by rintro o ⟨⟩; simp [value, call]) (by rintro o ⟨⟩; simp [value])).2.2.1

/-! ## C07 -/

/-- sum over paired entries -/
def pairedSum : List Obj → List ℝ → ℝ → Except Err ℝ
  | r :: rs, s :: ss, E => do
      let v ← value r E
      let w ← pairedSum rs ss E
      .ok (s * v + w)
  | _, _, _ => .ok 0

theorem wval_paired (rs : List Obj) (ss : List ℝ) (E : ℝ) (h : rs.length ≤ ss.length) :
    wval rs (ss.map .num) E = pairedSum rs ss E := by
  induction rs generalizing ss with
  | nil => simp [wval, pairedSum]
  | cons r rs ih =>
    cases ss with
    | nil => simp at h
    | cons s ss =>
      simp only [List.map_cons, wval, pairedSum]
      rw [ih ss (by simpa using h)]

theorem callLoop_short (rs : List Obj) (ss : List ℝ) (E : ℝ) (acc : ℝ)
    (h : ss.length < rs.length) (hok : ∀ r ∈ rs, ∃ v, r.call E = .ok (.num v)) :
    callLoop rs (ss.map .num) (.num acc) E = .error .indexError := by
  induction rs generalizing ss acc with
  | nil => simp at h
  | cons r rs ih =>
    cases ss with
    | nil => simp [callLoop]
    | cons s ss =>
      obtain ⟨v, hv⟩ := hok r (by simp)
      simp only [List.map_cons, callLoop, hv]
      show (do let p ← mul (.num s) (.num v); let acc' ← add (.num acc) p; callLoop _ _ acc' E) = _
      rw [mul_num_num]
      exact ih ss _ (by simpa using h) (fun l hl => hok l (by simp [hl]))

theorem pairedSum_take (rs : List Obj) (ss : List ℝ) (E : ℝ) :
    pairedSum rs (ss.take rs.length) E = pairedSum rs ss E := by
  induction rs generalizing ss with
  | nil => simp [pairedSum]
  | cons l ls ih => cases ss <;> simp [pairedSum, ih]

/-- C07: constructing from explicit lists of cross sections (which may be sums themselves) and numbers; enough factors → paired sum
with extra factors ignored; too few → `IndexError`; omitted factors → weight 1 for every reaction. -/
theorem C07_explicit_lists (rs : List Obj) (hrs : ∀ r ∈ rs, WF r) (ss : List ℝ) (E : ℝ) :
    (rs.length ≤ ss.length → ∃ o, mkWsum (some rs) (some (ss.map .num)) = .ok o ∧
      o.call E = (pairedSum rs ss E).map .num ∧ pairedSum rs ss E = pairedSum rs (ss.take rs.length) E) ∧
    (ss.length < rs.length → (∀ r ∈ rs, ∃ v, value r E = .ok v) →
      ∃ o, mkWsum (some rs) (some (ss.map .num)) = .ok o ∧ o.call E = .error .indexError) ∧
    (∃ o, mkWsum (some rs) none = .ok o ∧
      o.call E = (pairedSum rs (List.replicate rs.length 1) E).map .num) := by
  have wf : ∀ ss : List ℝ, rs.length ≤ ss.length → WF (.wsum rs (ss.map .num)) := by
    intro ss h
    refine .wsum _ _ hrs ?_ (by simpa using h)
    intro s hs; obtain ⟨c, _, rfl⟩ := List.mem_map.1 hs; exact ⟨c, rfl⟩
  refine ⟨fun h => ⟨_, rfl, ?_, ?_⟩, fun h hok => ⟨_, rfl, ?_⟩, ⟨_, rfl, ?_⟩⟩
  · rw [call_eq_value _ (wf ss h), value_wsum (wf ss h), wval_paired _ _ _ h]
  · rw [pairedSum_take]
  · have hok' : ∀ r ∈ rs, ∃ v, r.call E = .ok (.num v) := fun r hr => by
      obtain ⟨v, hv⟩ := hok r hr
      exact ⟨v, by rw [call_eq_value _ (hrs r hr), hv]; rfl⟩
    simpa [call] using callLoop_short rs ss E 0 h hok'
  · have h : rs.length ≤ (List.replicate rs.length (1 : ℝ)).length := by simp
    have e : List.replicate rs.length (Obj.num 1) = (List.replicate rs.length (1 : ℝ)).map .num := by simp
    rw [e, call_eq_value _ (wf _ h), value_wsum (wf _ h), wval_paired _ _ _ h]

example : (Obj.wsum [.leaf exLeaf, .leaf exLeaf] [.num 2, .num 3, .num 100]).call 10 = .ok (.num 50) ∧
    (Obj.wsum [.leaf exLeaf, .leaf exLeaf] [.num 2]).call 10 = .error .indexError := by
  constructor <;> simp [call, callLoop, mul, add, exLeaf, bind, Except.bind, Except.map]
  norm_num

/-- C07: a sum may itself be one of the listed cross sections -/
example : ∃ o, mkWsum (some [.wsum [.leaf exLeaf, .const 5] [.num 3, .num 1], .leaf exLeaf]) (some [.num 2, .num 1]) = .ok o ∧
    o.call 7 = .ok (.num 59) := by
  refine ⟨_, rfl, ?_⟩
  simp [call, callLoop, mul, add, exLeaf, bind, Except.bind, Except.map]; norm_num

/-! ## C08 -/

/-- C08 is false of the code: the constructor called without arguments raises `TypeError`. -/
theorem C08_default_constructor_refuted :
    ¬ ∃ o, mkWsum none none = .ok o ∧ ∀ E, o.call E = .ok (.num 0) := by
  simp [mkWsum]

/-- C08, the part that holds: with at least one of the two arguments given (possibly an empty list of
reactions) the constructor succeeds, without reactions the sum is identically zero, and without scale factors
it is the plain sum of the values of the reactions. -/
theorem C08_default_constructor_partial (ss : List Obj) :
    (∃ o, mkWsum none (some ss) = .ok o ∧ ∀ E, o.call E = .ok (.num 0)) ∧
    (∃ o, mkWsum (some []) none = .ok o ∧ ∀ E, o.call E = .ok (.num 0)) ∧
    (∃ o, mkWsum (some []) (some ss) = .ok o ∧ ∀ E, o.call E = .ok (.num 0)) ∧
    (∀ rs : List Obj, ∃ o, mkWsum (some rs) none = .ok o ∧
      ∀ E vs, List.Forall₂ (fun r v => r.call E = .ok (.num v)) rs vs → o.call E = .ok (.num vs.sum)) := by
  refine ⟨⟨_, rfl, fun E => by simp [call, callLoop]⟩, ⟨_, rfl, fun E => by simp [call, callLoop]⟩,
    ⟨_, rfl, fun E => by simp [call, callLoop]⟩, fun rs => ⟨_, rfl, fun E vs h => ?_⟩⟩
  have main : ∀ acc : ℝ, callLoop rs (List.replicate rs.length (.num 1)) (.num acc) E = .ok (.num (acc + vs.sum)) := by
    induction h with
    | nil => intro acc; simp [callLoop]
    | cons hv _ ih =>
      intro acc
      rw [List.length_cons, List.replicate_succ, callLoop, hv]
      simp only [bind, Except.bind, mul_num_num, add]
      rw [ih]
      simp [add_assoc]
  simpa [call] using main 0

example : List.Forall₂ (fun (r : Obj) v => r.call 10 = .ok (.num v)) [.leaf exLeaf, .const 3] [10, 3] := by
  simp [call, exLeaf, Except.map]

/-! ## C09 -/

/-- Objects that can be built by the operators and the built-in `sum` from numbers, cross sections
and constants, with no restriction on what is multiplied by what. -/
inductive Built : Obj → Prop
  | num (c : ℝ) : Built (.num c)
  | leaf (l : Leaf) : Built (.leaf l)
  | const (c : ℝ) : Built (.const c)
  | add {a b s : Obj} : Built a → Built b → add a b = .ok s → Built s
  | mul {a b s : Obj} : Built a → Built b → mul a b = .ok s → Built s

/-- C09 is false of the code: the product of two cross sections is accepted, and calling it on a
number returns a weighted-sum object instead of a number. -/
theorem C09_call_returns_number_refuted :
    ¬ ∀ o, Built o → ∀ E r, o.call E = .ok r → ∃ x, r = .num x := by
  intro h
  have hb : Built (.wsum [.leaf exLeaf] [.leaf exLeaf]) :=
    .mul (.leaf exLeaf) (.leaf exLeaf) (by simp [mul])
  have hc : (Obj.wsum [.leaf exLeaf] [.leaf exLeaf]).call 3 =
      .ok (.wsum [.leaf exLeaf, .const 0] [.num 3, .num 1]) := by
    simp [call, callLoop, mul, Obj.add, wsumAdd, pairScales, exLeaf, bind, Except.bind, Except.map]
  obtain ⟨x, hx⟩ := h _ hb 3 _ hc
  simp at hx

/-- Like `Built`, but in every product at least one factor is a number. -/
inductive BuiltScalar : Obj → Prop
  | num (c : ℝ) : BuiltScalar (.num c)
  | leaf (l : Leaf) : BuiltScalar (.leaf l)
  | const (c : ℝ) : BuiltScalar (.const c)
  | add {a b s : Obj} : BuiltScalar a → BuiltScalar b → Obj.add a b = .ok s → BuiltScalar s
  | mul {a b s : Obj} : BuiltScalar a → BuiltScalar b → (a.isNum = true ∨ b.isNum = true) →
      Obj.mul a b = .ok s → BuiltScalar s

theorem BuiltScalar.operand {o : Obj} (h : BuiltScalar o) : Operand o := by
  induction h with
  | num c => exact .inl ⟨c, rfl⟩
  | leaf l => exact .inr (.leaf l)
  | const c => exact .inr (.const c)
  | @add a b s _ _ hs iha ihb =>
    by_cases hab : a.isNum = true ∧ b.isNum = true
    · obtain ⟨h1, h2⟩ := hab
      cases a <;> simp [isNum] at h1
      cases b <;> simp [isNum] at h2
      simp [Obj.add] at hs; exact .inl ⟨_, hs.symm⟩
    · obtain ⟨s', h1, h2, _⟩ := C01_sum_evaluates_to_sum a b iha ihb hab
      rw [h1] at hs; injection hs with hs; exact .inr (hs ▸ h2)
  | @mul a b s _ _ hn hs iha ihb =>
    rcases iha with ⟨c, rfl⟩ | iha
    · rcases ihb with ⟨d, rfl⟩ | ihb
      · simp [Obj.mul] at hs; exact .inl ⟨_, hs.symm⟩
      · obtain ⟨s', h1, h2, _⟩ := (mul_spec c ihb).1
        rw [h1] at hs; injection hs with hs; exact .inr (hs ▸ h2)
    · rcases ihb with ⟨d, rfl⟩ | ihb
      · obtain ⟨s', h1, h2, _⟩ := (mul_spec d iha).2
        rw [h1] at hs; injection hs with hs; exact .inr (hs ▸ h2)
      · rcases hn with hn | hn
        · cases iha <;> simp [isNum] at hn
        · cases ihb <;> simp [isNum] at hn

/-- C09, the part that holds: if no two cross sections are multiplied with each other, calling the
result on a number returns a number or raises. Missing: products of two cross sections. -/
theorem C09_call_returns_number_partial (o : Obj) (h : BuiltScalar o) (E : ℝ) (r : Obj)
    (hr : o.call E = .ok r) : ∃ x, r = .num x := by
  rcases h.operand with ⟨c, rfl⟩ | hw
  · simp [call] at hr
  · rw [call_eq_value o hw] at hr
    cases hv : value o E with
    | error e => simp [hv, Except.map] at hr
    | ok x => simp [hv, Except.map] at hr; exact ⟨x, hr.symm⟩

example : BuiltScalar (.wsum [.leaf exLeaf] [.num 2]) :=
  .mul (.num 2) (.leaf exLeaf) (by simp [isNum]) (by simp [Obj.mul])

/-! ## C06 -/

/-- The array result read at index `i`: a scalar broadcasts. -/
def Val.at (v : Val) (i : ℕ) : Option ℝ :=
  match v with
  | .sc x => some x
  | .arr xs => xs[i]?

/-- Array result has the shape of an array of length `n`. -/
def Val.hasLen (v : Val) (n : ℕ) : Prop :=
  match v with
  | .sc _ => False
  | .arr xs => xs.length = n

/-- shape is compatible: scalar or array of length n -/
def Val.compat (v : Val) (n : ℕ) : Prop :=
  match v with
  | .sc _ => True
  | .arr xs => xs.length = n

/-- Some reaction of the (nested) object is not a constant. -/
inductive Varies : Obj → Prop
  | leaf (l : Leaf) : Varies (.leaf l)
  | wsum {rs ss : List Obj} {r : Obj} : r ∈ rs → Varies r → Varies (.wsum rs ss)

theorem Val.compat_of_hasLen {v : Val} {n : ℕ} (h : v.hasLen n) : v.compat n := by
  cases v
  · exact trivial
  · exact h

theorem Val.add_compat {a b : Val} {n : ℕ} (ha : a.compat n) (hb : b.compat n) :
    ∃ c, a.add b = .ok c ∧ c.compat n ∧ (∀ i x y, a.at i = some x → b.at i = some y → c.at i = some (x + y))
      ∧ (a.hasLen n ∨ b.hasLen n → c.hasLen n) := by
  cases a with
  | sc x => cases b with
    | sc y => exact ⟨_, rfl, trivial, by simp [Val.at], by simp [Val.hasLen]⟩
    | arr ys => exact ⟨_, rfl, by simpa [Val.compat] using hb,
        by intro i x y h1 h2; simp [Val.at] at *; simp [h1, h2], fun _ => by simpa [Val.hasLen, Val.compat] using hb⟩
  | arr xs => cases b with
    | sc y => exact ⟨_, rfl, by simpa [Val.compat] using ha,
        by intro i x y h1 h2; simp [Val.at] at *; simp [h1, h2], fun _ => by simpa [Val.hasLen, Val.compat] using ha⟩
    | arr ys =>
      have ha' : xs.length = n := ha
      have hb' : ys.length = n := hb
      refine ⟨.arr (List.zipWith (· + ·) xs ys), by simp [Val.add, ha', hb'], by simp [Val.compat, ha', hb'], ?_, fun _ => by simp [Val.hasLen, ha', hb']⟩
      intro i x y h1 h2
      simp only [Val.at] at *
      simp [List.getElem?_zipWith, h1, h2]

theorem Val.scale_compat {a : Val} {n : ℕ} (c : ℝ) (ha : a.compat n) : (a.scale c).compat n ∧
    (∀ i x, a.at i = some x → (a.scale c).at i = some (c * x)) ∧ (a.hasLen n → (a.scale c).hasLen n) := by
  cases a with
  | sc x => simp [Val.scale, Val.compat, Val.at, Val.hasLen]
  | arr xs =>
    refine ⟨by simpa [Val.scale, Val.compat] using ha, ?_, fun _ => by simpa [Val.scale, Val.hasLen, Val.compat] using ha⟩
    intro i x h; simp [Val.at, Val.scale] at *; simp [h]

/-- A leaf applied to an array where it has a value everywhere. -/
theorem mapM_eval (l : Leaf) (Es : List ℝ) (h : ∀ E ∈ Es, ∃ v, l.eval E = .ok v) :
    ∃ vs, Es.mapM l.eval = .ok vs ∧ vs.length = Es.length ∧
      ∀ i (hi : i < Es.length), ∃ x, l.eval Es[i] = .ok x ∧ vs[i]? = some x := by
  induction Es with
  | nil => exact ⟨[], rfl, rfl, by simp⟩
  | cons E Es ih =>
    obtain ⟨v, hv⟩ := h E (by simp)
    obtain ⟨vs, h1, h2, h3⟩ := ih (fun E hE => h E (by simp [hE]))
    refine ⟨v :: vs, by simp [hv, h1, bind, Except.bind, pure, Except.pure], by simp [h2], ?_⟩
    intro i hi
    cases i with
    | zero => exact ⟨v, by simpa using hv, by simp⟩
    | succ i => simpa using h3 i (by simpa using hi)

/-- every leaf inside the object has a value at `E` -/
inductive Evaluable (E : ℝ) : Obj → Prop
  | leaf (l : Leaf) (v : ℝ) : l.eval E = .ok v → Evaluable E (.leaf l)
  | const (c : ℝ) : Evaluable E (.const c)
  | wsum (rs ss : List Obj) : (∀ r ∈ rs, Evaluable E r) → Evaluable E (.wsum rs ss)

theorem callArr_spec {o : Obj} (h : WF o) (Es : List ℝ) :
    (∀ E ∈ Es, Evaluable E o) →
    ∃ v, o.callArr Es = .ok v ∧ v.compat Es.length ∧ (Varies o → v.hasLen Es.length) ∧
      ∀ i (hi : i < Es.length), ∃ x, value o Es[i] = .ok x ∧ v.at i = some x := by
  induction h with
  | leaf l =>
    intro he
    obtain ⟨vs, h1, h2, h3⟩ := mapM_eval l Es (fun E hE => by cases he E hE with | leaf _ v hv => exact ⟨v, hv⟩)
    refine ⟨.arr vs, by simp [callArr, h1, Except.map], h2, fun _ => h2, fun i hi => ?_⟩
    obtain ⟨x, hx, hx'⟩ := h3 i hi
    exact ⟨x, by simp [value, call, hx, Except.map], hx'⟩
  | const c => exact fun _ => ⟨.sc c, by simp [callArr], trivial, (fun h => by cases h), fun i hi => ⟨c, value_const _ _, rfl⟩⟩
  | wsum rs ss hr hs hl ih =>
    intro he
    have key : ∀ (rs ss : List Obj), (∀ s ∈ ss, ∃ c, s = Obj.num c) →
        rs.length ≤ ss.length →
        (∀ r ∈ rs, ∃ v, r.callArr Es = .ok v ∧ v.compat Es.length ∧ (Varies r → v.hasLen Es.length) ∧
          ∀ i (hi : i < Es.length), ∃ x, value r Es[i] = .ok x ∧ v.at i = some x) →
        ∀ acc : Val, acc.compat Es.length →
        ∃ v, callArrLoop rs ss acc Es = .ok v ∧ v.compat Es.length ∧
          ((acc.hasLen Es.length ∨ ∃ r ∈ rs, Varies r) → v.hasLen Es.length) ∧
          ∀ i (hi : i < Es.length), ∀ a, acc.at i = some a →
            ∃ x, wval rs ss Es[i] = .ok x ∧ v.at i = some (a + x) := by
      intro rs
      induction rs with
      | nil =>
        intro ss _ _ _ acc hacc
        exact ⟨acc, by simp [callArrLoop], hacc, by simp, fun i hi a ha => ⟨0, by simp [wval], by simpa using ha⟩⟩
      | cons r rs IH =>
        intro ss hs hl hc acc hacc
        cases ss with
        | nil => simp at hl
        | cons s ss =>
          obtain ⟨c, rfl⟩ := hs s (by simp)
          obtain ⟨v, h1, h2, h3, h4⟩ := hc r (by simp)
          obtain ⟨g1, g2, g3⟩ := Val.scale_compat c h2
          obtain ⟨acc', k1, k2, k3, k4⟩ := Val.add_compat hacc g1
          obtain ⟨w, l1, l2, l3, l4⟩ := IH ss (fun s h => hs s (by simp [h])) (by simpa using hl)
            (fun r h => hc r (by simp [h])) acc' k2
          refine ⟨w, by simp [callArrLoop, h1, k1, l1, bind, Except.bind], l2, ?_, ?_⟩
          · rintro (h | ⟨r', hr', hv⟩)
            · exact l3 (.inl (k4 (.inl h)))
            · rcases List.mem_cons.1 hr' with rfl | hr'
              · exact l3 (.inl (k4 (.inr (g3 (h3 hv)))))
              · exact l3 (.inr ⟨r', hr', hv⟩)
          · intro i hi a ha
            obtain ⟨x, hx, hx'⟩ := h4 i hi
            have := k3 i a (c * x) ha (g2 i x hx')
            obtain ⟨y, hy, hy'⟩ := l4 i hi _ this
            refine ⟨c * x + y, by simp [wval, hx, hy, bind, Except.bind], ?_⟩
            rw [hy']; congr 1; ring
    obtain ⟨v, h1, h2, h3, h4⟩ := key rs ss hs hl (fun r hrm => ih r hrm (fun E hE => by
      cases he E hE with | wsum _ _ h => exact h r hrm)) (.sc 0) trivial
    refine ⟨v, by simp [callArr, h1], h2, ?_, fun i hi => ?_⟩
    · intro hv; cases hv with | wsum hm hv => exact h3 (.inr ⟨_, hm, hv⟩)
    · obtain ⟨x, hx, hx'⟩ := h4 i hi 0 rfl
      exact ⟨x, by rw [value_wsum (.wsum rs ss hr hs hl), hx], by simpa using hx'⟩

/-- C06, the part that holds: evaluation on an array gives at each index the scalar evaluation (a
scalar result being read as a broadcast one), and the result is an array of the same length as soon
as some constituent is not a constant.  Missing: the array shape for sums of constants only, see
`C06_array_shape_refuted`. -/
theorem C06_array_pointwise_partial (rs ss : List Obj) (h : WF (.wsum rs ss)) (Es : List ℝ)
    (he : ∀ E ∈ Es, Evaluable E (.wsum rs ss)) :
    ∃ v, (Obj.wsum rs ss).callArr Es = .ok v ∧
      (Varies (.wsum rs ss) → v.hasLen Es.length) ∧
      ∀ i (hi : i < Es.length), ∃ x, (Obj.wsum rs ss).call Es[i] = .ok (.num x) ∧ v.at i = some x := by
  obtain ⟨v, h1, _, h3, h4⟩ := callArr_spec h Es he
  refine ⟨v, h1, h3, fun i hi => ?_⟩
  obtain ⟨x, hx, hx'⟩ := h4 i hi
  exact ⟨x, by rw [call_eq_value _ h, hx]; rfl, hx'⟩

/-- C06's shape claim is false for sums all of whose constituents are constants. -/
theorem C06_array_shape_refuted :
    ¬ ∀ (rs ss : List Obj), WF (.wsum rs ss) → ∀ Es : List ℝ, ∀ v,
      (Obj.wsum rs ss).callArr Es = .ok v → v.hasLen Es.length := by
  intro h
  have hw : WF (.wsum [.const 1] [.num 1]) := (mul_single 1 (.const 1)).1
  exact h _ _ hw [1, 2] (.sc (0 + 1 * 1)) (by
    simp [callArr, callArrLoop, Val.add, Val.scale, bind, Except.bind])

example : Varies (.wsum [.const 1, .leaf exLeaf] [.num 1, .num 2]) ∧
    ∀ E ∈ [(1:ℝ), 2], Evaluable E (.wsum [.const 1, .leaf exLeaf] [.num 1, .num 2]) := by
  refine ⟨.wsum (r := .leaf exLeaf) (by simp) (.leaf _), fun E _ => .wsum _ _ ?_⟩
  intro r hr; simp at hr; rcases hr with rfl | rfl
  · exact .const 1
  · exact .leaf _ E rfl

end Ries
