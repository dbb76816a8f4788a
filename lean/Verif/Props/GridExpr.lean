import Verif.Props.CrossSection
import Verif.Props.Grid

/-! # Properties C100, C101: grids of arithmetic expressions, and of Python's `sum` -/

namespace Ries

open Obj

/-- A grid method. -/
abbrev GridFn := Req → ℤ → Except Err (List Fl)

/-- The grid methods an expression contributes: those of the cross sections in it, and the equidistant grid of the constant cross
section that every number added to a cross section stands for; the built-in `sum` begins with the number 0. -/
inductive Expr.Uses : Expr → GridFn → Prop
  | atom (l : Leaf) : Uses (.atom l) l.grid
  | const (c : ℝ) : Uses (.const c) constGrid
  | addLeft {a b g} (h : Uses a g) : Uses (.add a b) g
  | addRight {a b g} (h : Uses b g) : Uses (.add a b) g
  | numLeft {a b} (ha : a.ty = some .num) (hb : b.ty = some .cs) : Uses (.add a b) constGrid
  | numRight {a b} (ha : a.ty = some .cs) (hb : b.ty = some .num) : Uses (.add a b) constGrid
  | mulLeft {a b g} (h : Uses a g) : Uses (.mul a b) g
  | mulRight {a b g} (h : Uses b g) : Uses (.mul a b) g
  | sum {xs x g} (hx : x ∈ xs) (h : Uses x g) : Uses (.sum xs) g
  | sumZero {xs} (h : Expr.tys xs = some .cs) : Uses (.sum xs) constGrid

/-- the grid methods of an object -/
inductive Src : Obj → GridFn → Prop
  | leaf (l : Leaf) : Src (.leaf l) l.grid
  | const (c : ℝ) : Src (.const c) constGrid
  | wsum {rs ss r g} (hr : r ∈ rs) (h : Src r g) : Src (.wsum rs ss) g

theorem src_num (c : ℝ) (g : GridFn) : ¬ Src (.num c) g := by rintro ⟨⟩

theorem src_leaf (l : Leaf) (g : GridFn) : Src (.leaf l) g ↔ g = l.grid :=
  ⟨fun h => by cases h; rfl, fun h => h ▸ .leaf l⟩

theorem src_const (c : ℝ) (g : GridFn) : Src (.const c) g ↔ g = constGrid :=
  ⟨fun h => by cases h; rfl, fun h => h ▸ .const c⟩

theorem src_wsum (rs ss : List Obj) (g : GridFn) : Src (.wsum rs ss) g ↔ ∃ r ∈ rs, Src r g :=
  ⟨fun h => by cases h with | wsum hr h => exact ⟨_, hr, h⟩, fun ⟨_, hr, h⟩ => .wsum hr h⟩

/-- the grid of a well-formed cross section in terms of its grid methods -/
theorem grid_src {o : Obj} (ho : WF o) (req : Req) (n : ℤ) :
    ((∃ g, o.probGrid req n = .ok g) ↔ ∀ f, Src o f → ∃ g, f req n = .ok g) ∧
    ∀ g, o.probGrid req n = .ok g → ∀ x, x ∈ g ↔ ∃ f, Src o f ∧ ∃ gf, f req n = .ok gf ∧ x ∈ gf := by
  induction ho with
  | leaf l =>
    simp only [src_leaf, Obj.probGrid, forall_eq, exists_eq_left, true_and]
    intro g hg x
    simp [hg]
  | const c =>
    simp only [src_const, Obj.probGrid, forall_eq, exists_eq_left, true_and]
    intro g hg x
    simp [hg]
  | wsum rs ss hr hs hl ih =>
    obtain ⟨hex, hall⟩ := C14_sum_grid rs ss req n
    constructor
    · rw [hex]
      constructor
      · intro h f hf
        obtain ⟨r, hr, hf⟩ := (src_wsum rs ss f).1 hf
        exact (ih r hr).1.1 (h r hr) f hf
      · intro h r hr
        exact (ih r hr).1.2 fun f hf => h f (.wsum hr hf)
    · intro g hg x
      rw [(hall g hg).2 x]
      constructor
      · rintro ⟨r, hr, go, hgo, hx⟩
        obtain ⟨f, hf, h⟩ := ((ih r hr).2 go hgo x).1 hx
        exact ⟨f, .wsum hr hf, h⟩
      · rintro ⟨f, hf, gf, hgf, hx⟩
        obtain ⟨r, hr, hf⟩ := (src_wsum rs ss f).1 hf
        obtain ⟨go, hgo⟩ := hex.1 ⟨g, hg⟩ r hr
        exact ⟨r, hr, go, hgo, ((ih r hr).2 go hgo x).2 ⟨f, hf, gf, hgf, hx⟩⟩

theorem src_wsumAdd {rs ss : List Obj} {b o : Obj} (h : wsumAdd rs ss b = .ok o) (g : GridFn) :
    Src o g ↔ Src (.wsum rs ss) g ∨ Src b g ∨ ((∃ c, b = .num c) ∧ g = constGrid) := by
  unfold wsumAdd at h
  cases hp : pairScales rs ss with
  | error e => simp [hp, bind, Except.bind] at h
  | ok ss' =>
    simp only [hp, bind, Except.bind] at h
    cases b with
    | num c => cases h; simp [src_wsum, or_and_right, exists_or, src_const, src_num]
    | leaf l => cases h; simp [src_wsum, or_and_right, exists_or, src_leaf]
    | const c => cases h; simp [src_wsum, or_and_right, exists_or, src_const]
    | wsum rs2 ss2 =>
      cases hp2 : pairScales rs2 ss2 with
      | error e => simp [hp2] at h
      | ok ss2' =>
        simp only [hp2, Except.ok.injEq] at h
        subst h
        simp [src_wsum, or_and_right, exists_or]

theorem src_csAdd (a b : Obj) (g : GridFn) :
    Src (csAdd a b) g ↔ Src a g ∨ Src b g ∨ ((∃ c, b = .num c) ∧ g = constGrid) := by
  cases b <;> simp [csAdd, src_wsum, src_const, src_num]

theorem src_add {a b o : Obj} {s t : Ty} (ha : HasTy a s) (hb : HasTy b t) (h : add a b = .ok o) (g : GridFn) :
    Src o g ↔ Src a g ∨ Src b g ∨ (s ≠ t ∧ g = constGrid) := by
  have hn : ∀ {o : Obj}, WF o → ¬ ∃ c, o = .num c := fun h ⟨c, hc⟩ => h.not_num c hc
  have cs : ∀ {a : Obj}, WF a → ∀ b : Obj, ∀ o, add a b = .ok o →
      (Src o g ↔ Src a g ∨ Src b g ∨ ((∃ c, b = .num c) ∧ g = constGrid)) := by
    intro a ha b o h
    cases ha with
    | leaf l => simp only [add, Except.ok.injEq] at h; subst h; exact src_csAdd _ _ _
    | const c => simp only [add, Except.ok.injEq] at h; subst h; exact src_csAdd _ _ _
    | wsum rs ss _ _ _ => simp only [add] at h; exact src_wsumAdd h g
  cases s with
  | num =>
    obtain ⟨c, rfl⟩ := ha
    cases t with
    | num =>
      obtain ⟨d, rfl⟩ := hb
      simp only [add, Except.ok.injEq] at h
      subst h
      simp [src_num]
    | cs =>
      have hc : add b (.num c) = .ok o := by
        cases hb with
        | leaf l => exact h
        | const c => exact h
        | wsum rs ss _ _ _ => exact h
      rw [cs hb _ _ hc]
      simp [src_num]
  | cs =>
    rw [cs ha b o h]
    cases t with
    | num => obtain ⟨d, rfl⟩ := hb; simp
    | cs => simp [hn hb]

theorem src_mul {a b o : Obj} {s t : Ty} (ha : HasTy a s) (hb : HasTy b t) (hst : ¬ (s = .cs ∧ t = .cs)) (h : mul a b = .ok o)
    (g : GridFn) : Src o g ↔ Src a g ∨ Src b g := by
  have key : ∀ {x : Obj} (c : ℝ), WF x → ∀ o, (mul (.num c) x = .ok o ∨ mul x (.num c) = .ok o) → (Src o g ↔ Src x g) := by
    intro x c hx o h
    cases hx with
    | leaf l => simp only [mul, or_self, Except.ok.injEq] at h; subst h; simp [src_wsum]
    | const d => simp only [mul, or_self, Except.ok.injEq] at h; subst h; simp [src_wsum]
    | wsum rs ss _ _ _ =>
      simp only [mul, or_self] at h
      cases hm : mulLoop (.num c) rs ss with
      | error e => simp [hm, Except.map] at h
      | ok ss' =>
        simp only [hm, Except.map, Except.ok.injEq] at h
        subst h
        rw [src_wsum, src_wsum]
  cases s with
  | num =>
    obtain ⟨c, rfl⟩ := ha
    cases t with
    | num =>
      obtain ⟨d, rfl⟩ := hb
      simp only [mul, Except.ok.injEq] at h
      subst h
      simp [src_num]
    | cs => rw [key c hb o (.inl h)]; simp [src_num]
  | cs =>
    cases t with
    | num =>
      obtain ⟨d, rfl⟩ := hb
      rw [key d ha o (.inr h)]
      simp [src_num]
    | cs => exact absurd ⟨rfl, rfl⟩ hst

theorem src_sum (xs : List Expr) (t : Ty) (h : Expr.tys xs = some t)
    (ih : ∀ x ∈ xs, ∀ t o, x.ty = some t → x.run = .ok o → ∀ g, Src o g ↔ x.Uses g) :
    ∀ (o : Obj) (s : Ty), HasTy o s → ∀ os r, Expr.runs xs = .ok os → os.foldlM add o = .ok r → ∀ g,
      (Src r g ↔ Src o g ∨ (∃ x ∈ xs, x.Uses g) ∨
        ((s.join t = .cs ∧ (s = .num ∨ ∃ x ∈ xs, x.ty = some .num)) ∧ g = constGrid)) := by
  induction xs generalizing t with
  | nil =>
    intro o s ho os r h1 h2 g
    simp [Expr.runs] at h1; subst h1
    simp only [List.foldlM_nil, pure, Except.pure, Except.ok.injEq] at h2; subst h2
    simp [Expr.tys] at h; subst h
    cases s <;> simp [Ty.join]
  | cons x xs IH =>
    intro o s ho os r h1 h2 g
    simp only [Expr.tys] at h
    obtain ⟨tx, hx, h⟩ := Option.bind_eq_some_iff.1 h
    obtain ⟨txs, hxs, h⟩ := Option.bind_eq_some_iff.1 h
    simp at h; subst h
    obtain ⟨ox, hrun, hty, -⟩ := C03_expression_compositional x tx hx
    simp only [Expr.runs, hrun, bind, Except.bind] at h1
    cases hos : Expr.runs xs with
    | error e => simp [hos] at h1
    | ok os' =>
      simp only [hos, Except.ok.injEq] at h1
      subst h1
      obtain ⟨o', ha, hty', -⟩ := add_hasTy ho hty
      simp only [List.foldlM_cons, ha, bind, Except.bind] at h2
      rw [IH txs hxs (fun y hy => ih y (by simp [hy])) o' _ hty' os' r hos h2 g, src_add ho hty ha g,
        ih x (by simp) tx ox hx hrun g]
      simp only [List.mem_cons, exists_eq_or_imp, hx]
      generalize Src o g = A, x.Uses g = B, (∃ y ∈ xs, y.Uses g) = C, (∃ y ∈ xs, y.ty = some Ty.num) = D, (g = constGrid) = F
      clear * -
      cases s <;> cases tx <;> cases txs <;> simp [Ty.join] <;> tauto

/-- the grid methods of the object that an expression evaluates to -/
theorem src_run : ∀ (e : Expr) (t : Ty) (o : Obj), e.ty = some t → e.run = .ok o → ∀ g, Src o g ↔ e.Uses g
  | .num c, t, o, _, h => by
      simp only [Expr.run, Except.ok.injEq] at h; subst h
      exact fun g => ⟨fun h => absurd h (src_num c g), fun h => by cases h⟩
  | .atom l, t, o, _, h => by
      simp only [Expr.run, Except.ok.injEq] at h; subst h
      exact fun g => (src_leaf l g).trans ⟨fun h => h ▸ .atom l, fun h => by cases h; rfl⟩
  | .const c, t, o, _, h => by
      simp only [Expr.run, Except.ok.injEq] at h; subst h
      exact fun g => (src_const c g).trans ⟨fun h => h ▸ .const c, fun h => by cases h; rfl⟩
  | .add a b, t, o, ht, h => by
      intro g
      simp only [Expr.ty] at ht
      obtain ⟨s1, h1, ht⟩ := Option.bind_eq_some_iff.1 ht
      obtain ⟨s2, h2, ht⟩ := Option.bind_eq_some_iff.1 ht
      obtain ⟨oa, ra, ta, -⟩ := C03_expression_compositional a s1 h1
      obtain ⟨ob, rb, tb, -⟩ := C03_expression_compositional b s2 h2
      simp only [Expr.run, ra, rb, bind, Except.bind] at h
      rw [src_add ta tb h g, src_run a s1 oa h1 ra g, src_run b s2 ob h2 rb g]
      constructor
      · rintro (h | h | ⟨hne, rfl⟩)
        · exact .addLeft h
        · exact .addRight h
        · cases s1 <;> cases s2
          · exact absurd rfl hne
          · exact .numLeft h1 h2
          · exact .numRight h1 h2
          · exact absurd rfl hne
      · intro h
        cases h with
        | addLeft h => exact .inl h
        | addRight h => exact .inr (.inl h)
        | numLeft ha hb => rw [h1] at ha; rw [h2] at hb; cases ha; cases hb; exact .inr (.inr ⟨by simp, rfl⟩)
        | numRight ha hb => rw [h1] at ha; rw [h2] at hb; cases ha; cases hb; exact .inr (.inr ⟨by simp, rfl⟩)
  | .mul a b, t, o, ht, h => by
      intro g
      simp only [Expr.ty] at ht
      obtain ⟨s1, h1, ht⟩ := Option.bind_eq_some_iff.1 ht
      obtain ⟨s2, h2, ht⟩ := Option.bind_eq_some_iff.1 ht
      obtain ⟨oa, ra, ta, -⟩ := C03_expression_compositional a s1 h1
      obtain ⟨ob, rb, tb, -⟩ := C03_expression_compositional b s2 h2
      simp only [Expr.run, ra, rb, bind, Except.bind] at h
      rw [src_mul ta tb (by rintro ⟨rfl, rfl⟩; simp at ht) h g, src_run a s1 oa h1 ra g, src_run b s2 ob h2 rb g]
      constructor
      · rintro (h | h)
        · exact .mulLeft h
        · exact .mulRight h
      · intro h
        cases h with
        | mulLeft h => exact .inl h
        | mulRight h => exact .inr h
  | .sum xs, t, o, ht, h => by
      intro g
      simp only [Expr.ty] at ht
      simp only [Expr.run, pySum, bind, Except.bind] at h
      cases hos : Expr.runs xs with
      | error e => simp [hos] at h
      | ok os =>
        simp only [hos] at h
        rw [src_sum xs t ht (fun x hx t o ht hr => src_run x t o ht hr) (.num 0) .num ⟨0, rfl⟩ os o hos h g]
        have hjoin : Ty.join .num t = t := by cases t <;> rfl
        rw [hjoin]
        constructor
        · rintro (h | ⟨x, hx, h⟩ | ⟨⟨rfl, -⟩, rfl⟩)
          · exact absurd h (src_num _ _)
          · exact .sum hx h
          · exact .sumZero ht
        · intro h
          cases h with
          | sum hx h => exact .inr (.inl ⟨_, hx, h⟩)
          | sumZero h => rw [ht] at h; cases h; exact .inr (.inr ⟨⟨rfl, .inl rfl⟩, rfl⟩)

/-! ## C100 -/

/-- the expression is not just a single cross section -/
def Expr.Compound : Expr → Prop
  | .atom _ => False
  | .const _ => False
  | _ => True

theorem add_wsum {a b o : Obj} {s t : Ty} (ha : HasTy a s) (hb : HasTy b t) (hst : s.join t = .cs) (h : add a b = .ok o) :
    ∃ rs ss, o = .wsum rs ss := by
  have w : ∀ rs ss b o, wsumAdd rs ss b = .ok o → ∃ rs ss, o = .wsum rs ss := by
    intro rs ss b o h
    unfold wsumAdd at h
    cases hp : pairScales rs ss with
    | error e => simp [hp, bind, Except.bind] at h
    | ok ss' =>
      simp only [hp, bind, Except.bind] at h
      cases b with
      | num c => cases h; exact ⟨_, _, rfl⟩
      | leaf l => cases h; exact ⟨_, _, rfl⟩
      | const c => cases h; exact ⟨_, _, rfl⟩
      | wsum rs2 ss2 =>
        cases hp2 : pairScales rs2 ss2 with
        | error e => simp [hp2] at h
        | ok ss2' => simp only [hp2, Except.ok.injEq] at h; exact ⟨_, _, h.symm⟩
  have c : ∀ a b, ∃ rs ss, csAdd a b = .wsum rs ss := by
    intro a b; cases b <;> exact ⟨_, _, rfl⟩
  cases s with
  | num =>
    cases t with
    | num => simp [Ty.join] at hst
    | cs =>
      obtain ⟨x, rfl⟩ := ha
      cases hb with
      | leaf l => simp only [add, Except.ok.injEq] at h; subst h; exact c _ _
      | const d => simp only [add, Except.ok.injEq] at h; subst h; exact c _ _
      | wsum rs ss _ _ _ => exact w rs ss (.num x) o h
  | cs =>
    cases ha with
    | leaf l => simp only [add, Except.ok.injEq] at h; subst h; exact c _ _
    | const d => simp only [add, Except.ok.injEq] at h; subst h; exact c _ _
    | wsum rs ss _ _ _ => exact w _ _ _ _ h

theorem foldlM_wsum (xs : List Expr) (t : Ty) (h : Expr.tys xs = some t) :
    ∀ (o : Obj) (s : Ty), HasTy o s → (s = .cs → ∃ rs ss, o = .wsum rs ss) → s.join t = .cs →
      ∀ os r, Expr.runs xs = .ok os → os.foldlM add o = .ok r → ∃ rs ss, r = .wsum rs ss := by
  induction xs generalizing t with
  | nil =>
    intro o s ho hs hst os r h1 h2
    simp [Expr.runs] at h1; subst h1
    simp only [List.foldlM_nil, pure, Except.pure, Except.ok.injEq] at h2; subst h2
    simp [Expr.tys] at h; subst h
    refine hs ?_
    cases s <;> simp_all [Ty.join]
  | cons x xs IH =>
    intro o s ho hs hst os r h1 h2
    simp only [Expr.tys] at h
    obtain ⟨tx, hx, h⟩ := Option.bind_eq_some_iff.1 h
    obtain ⟨txs, hxs, h⟩ := Option.bind_eq_some_iff.1 h
    simp at h; subst h
    obtain ⟨ox, hrun, hty, -⟩ := C03_expression_compositional x tx hx
    simp only [Expr.runs, hrun, bind, Except.bind] at h1
    cases hos : Expr.runs xs with
    | error e => simp [hos] at h1
    | ok os' =>
      simp only [hos, Except.ok.injEq] at h1
      subst h1
      obtain ⟨o', ha, hty', -⟩ := add_hasTy ho hty
      simp only [List.foldlM_cons, ha, bind, Except.bind] at h2
      refine IH txs hxs o' _ hty' (fun hc => add_wsum ho hty hc ha) ?_ os' r hos h2
      cases s <;> cases tx <;> cases txs <;> simp_all [Ty.join]

theorem compound_wsum {e : Expr} {o : Obj} (hc : e.Compound) (ht : e.ty = some .cs) (h : e.run = .ok o) :
    ∃ rs ss, o = .wsum rs ss := by
  cases e with
  | num c => simp [Expr.ty] at ht
  | atom l => exact hc.elim
  | const c => exact hc.elim
  | add a b =>
    simp only [Expr.ty] at ht
    obtain ⟨s1, h1, ht⟩ := Option.bind_eq_some_iff.1 ht
    obtain ⟨s2, h2, ht⟩ := Option.bind_eq_some_iff.1 ht
    obtain ⟨oa, ra, ta, -⟩ := C03_expression_compositional a s1 h1
    obtain ⟨ob, rb, tb, -⟩ := C03_expression_compositional b s2 h2
    simp only [Expr.run, ra, rb, bind, Except.bind] at h
    exact add_wsum ta tb (by simpa using ht) h
  | mul a b =>
    simp only [Expr.ty] at ht
    obtain ⟨s1, h1, ht⟩ := Option.bind_eq_some_iff.1 ht
    obtain ⟨s2, h2, ht⟩ := Option.bind_eq_some_iff.1 ht
    obtain ⟨oa, ra, ta, -⟩ := C03_expression_compositional a s1 h1
    obtain ⟨ob, rb, tb, -⟩ := C03_expression_compositional b s2 h2
    simp only [Expr.run, ra, rb, bind, Except.bind] at h
    have key : ∀ {x : Obj} (c : ℝ), WF x → ∀ o, (mul (.num c) x = .ok o ∨ mul x (.num c) = .ok o) → ∃ rs ss, o = .wsum rs ss := by
      intro x c hx o h
      cases hx with
      | leaf l => simp only [mul, or_self, Except.ok.injEq] at h; exact ⟨_, _, h.symm⟩
      | const d => simp only [mul, or_self, Except.ok.injEq] at h; exact ⟨_, _, h.symm⟩
      | wsum rs ss _ _ _ =>
        simp only [mul, or_self] at h
        cases hm : mulLoop (.num c) rs ss with
        | error e => simp [hm, Except.map] at h
        | ok ss' => simp only [hm, Except.map, Except.ok.injEq] at h; exact ⟨_, _, h.symm⟩
    cases s1 with
    | num =>
      obtain ⟨c, rfl⟩ := ta
      cases s2 with
      | num => simp [Ty.join] at ht
      | cs => exact key c tb o (.inl h)
    | cs =>
      cases s2 with
      | num => obtain ⟨c, rfl⟩ := tb; exact key c ta o (.inr h)
      | cs => simp at ht
  | sum xs =>
    simp only [Expr.ty] at ht
    simp only [Expr.run, pySum, bind, Except.bind] at h
    cases hos : Expr.runs xs with
    | error e => simp [hos] at h
    | ok os =>
      simp only [hos] at h
      exact foldlM_wsum xs .cs ht (.num 0) .num ⟨0, rfl⟩ (by simp) (by simp [Ty.join]) os o hos h

/-- C100: the equal-probability grid of any arithmetic expression of cross sections exists as soon as the grids of all cross sections
in it (and the equidistant grid, if a number is added) exist; it is the union of these grids, and sorted without duplicates unless
the expression is a single cross section. -/
theorem C100_expression_grid (e : Expr) (ht : e.ty = some .cs) (req : Req) (n : ℤ) :
    ∃ o, e.run = .ok o ∧ ((∃ g, o.probGrid req n = .ok g) ↔ ∀ f, e.Uses f → ∃ g, f req n = .ok g) ∧
      ∀ g, o.probGrid req n = .ok g → (e.Compound → g.Pairwise (· < ·)) ∧
        ∀ x, x ∈ g ↔ ∃ f, e.Uses f ∧ ∃ gf, f req n = .ok gf ∧ x ∈ gf := by
  obtain ⟨o, hr, hty, -⟩ := C03_expression_compositional e .cs ht
  have hs := src_run e .cs o ht hr
  have hg := grid_src hty req n
  simp only [hs] at hg
  refine ⟨o, hr, hg.1, fun g h => ⟨fun hc => ?_, hg.2 g h⟩⟩
  obtain ⟨rs, ss, rfl⟩ := compound_wsum hc ht hr
  exact ((C14_sum_grid rs ss req n).2 g h).1

/-- Two expressions have the same grids: for every request both fail or both give the same points. -/
def SameGrids (e e' : Expr) : Prop := ∃ o o', e.run = .ok o ∧ e'.run = .ok o' ∧ ∀ req n g, o.probGrid req n = .ok g ↔ o'.probGrid req n = .ok g

theorem sorted_unique {g g' : List Fl} (h : g.Pairwise (· < ·)) (h' : g'.Pairwise (· < ·)) (hm : ∀ x, x ∈ g ↔ x ∈ g') : g = g' := by
  refine List.Perm.eq_of_pairwise (le := (· < ·)) (fun a b _ _ h1 h2 => absurd (h1.trans h2) (lt_irrefl a)) h h' ?_
  exact (List.perm_ext_iff_of_nodup (h.imp fun h => h.ne) (h'.imp fun h => h.ne)).2 hm

theorem sameGrids_of_uses {e e' : Expr} (ht : e.ty = some .cs) (ht' : e'.ty = some .cs) (hc : e.Compound) (hc' : e'.Compound)
    (hu : ∀ f, e.Uses f ↔ e'.Uses f) : SameGrids e e' := by
  obtain ⟨o, hr, -⟩ := C100_expression_grid e ht (.cov 0) 0
  obtain ⟨o', hr', -⟩ := C100_expression_grid e' ht' (.cov 0) 0
  refine ⟨o, o', hr, hr', fun req n => ?_⟩
  obtain ⟨o1, h1, hex, hall⟩ := C100_expression_grid e ht req n
  obtain ⟨o1', h1', hex', hall'⟩ := C100_expression_grid e' ht' req n
  rw [hr] at h1; cases h1
  rw [hr'] at h1'; cases h1'
  have hiff : (∃ g, o.probGrid req n = .ok g) ↔ ∃ g, o'.probGrid req n = .ok g := by rw [hex, hex']; simp only [hu]
  have heq : ∀ g g', o.probGrid req n = .ok g → o'.probGrid req n = .ok g' → g = g' := by
    intro g g' hg hg'
    refine sorted_unique ((hall g hg).1 hc) ((hall' g' hg').1 hc') fun x => ?_
    rw [(hall g hg).2 x, (hall' g' hg').2 x]
    simp only [hu]
  intro g
  constructor
  · intro hg
    obtain ⟨g', hg'⟩ := hiff.1 ⟨g, hg⟩
    rw [hg', heq g g' hg hg']
  · intro hg'
    obtain ⟨g0, hg⟩ := hiff.2 ⟨g, hg'⟩
    rw [hg, heq g0 g hg hg']

/-- C100: order, grouping and scaling of the summands do not change the grid of a sum. -/
theorem C100_laws {a b c : Expr} (ha : a.ty = some .cs) (hb : b.ty = some .cs) (hc : c.ty = some .cs) (k : ℝ) :
    SameGrids (.add a b) (.add b a) ∧ SameGrids (.add (.add a b) c) (.add a (.add b c)) ∧
    SameGrids (.mul (.num k) (.add a b)) (.add a b) ∧
    SameGrids (.add (.mul (.num k) a) b) (.add a b) := by
  have hm : ∀ x : Expr, x.ty = some .cs → (Expr.mul (.num k) x).ty = some .cs := by
    intro x hx; simp [Expr.ty, hx, Ty.join]
  have hadd : ∀ x y : Expr, x.ty = some .cs → y.ty = some .cs → (Expr.add x y).ty = some .cs := by
    intro x y hx hy; simp [Expr.ty, hx, hy, Ty.join]
  have uadd : ∀ x y : Expr, x.ty = some .cs → y.ty = some .cs → ∀ f, (Expr.add x y).Uses f ↔ x.Uses f ∨ y.Uses f := by
    intro x y hx hy f
    constructor
    · intro h
      cases h with
      | addLeft h => exact .inl h
      | addRight h => exact .inr h
      | numLeft h1 h2 => rw [hx] at h1; cases h1
      | numRight h1 h2 => rw [hy] at h2; cases h2
    · rintro (h | h)
      · exact .addLeft h
      · exact .addRight h
  have umul : ∀ x : Expr, ∀ f, (Expr.mul (.num k) x).Uses f ↔ x.Uses f := by
    intro x f
    constructor
    · intro h
      cases h with
      | mulLeft h => cases h
      | mulRight h => exact h
    · exact .mulRight
  refine ⟨sameGrids_of_uses (hadd a b ha hb) (hadd b a hb ha) trivial trivial fun f => ?_,
    sameGrids_of_uses (hadd _ c (hadd a b ha hb) hc) (hadd a _ ha (hadd b c hb hc)) trivial trivial fun f => ?_,
    sameGrids_of_uses (hm _ (hadd a b ha hb)) (hadd a b ha hb) trivial trivial fun f => ?_,
    sameGrids_of_uses (hadd _ b (hm a ha) hb) (hadd a b ha hb) trivial trivial fun f => ?_⟩
  · rw [uadd a b ha hb, uadd b a hb ha, or_comm]
  · rw [uadd _ c (hadd a b ha hb) hc, uadd a b ha hb, uadd a _ ha (hadd b c hb hc), uadd b c hb hc, or_assoc]
  · rw [umul]
  · rw [uadd _ b (hm a ha) hb, umul, uadd a b ha hb]

example (l l' : Leaf) : (Expr.add (.mul (.num 2) (.atom l)) (.atom l')).ty = some .cs := by simp [Expr.ty, Ty.join]

/-! ## C101 -/

/-- `a₁ + a₂ + ... + aₙ` written out -/
def Expr.plus (x : Expr) (xs : List Expr) : Expr := xs.foldl .add x

/-- C101 in full: built-in `sum` of two or more cross sections is the same as adding them: the same values, the same grids. -/
def C101Statement : Prop := ∀ (x : Expr) (xs : List Expr), (∀ y ∈ x :: xs, y.ty = some .cs) → xs ≠ [] →
  (∃ o o', (Expr.sum (x :: xs)).run = .ok o ∧ (Expr.plus x xs).run = .ok o' ∧ ∀ E, o.call E = o'.call E) ∧ SameGrids (.sum (x :: xs)) (.plus x xs)

theorem tys_all {xs : List Expr} (h : ∀ y ∈ xs, y.ty = some .cs) (hne : xs ≠ []) : Expr.tys xs = some .cs := by
  induction xs with
  | nil => exact absurd rfl hne
  | cons x xs ih =>
    simp only [Expr.tys, h x (by simp)]
    by_cases hx : xs = []
    · subst hx; rfl
    · rw [ih (fun y hy => h y (by simp [hy])) hx]; rfl

theorem plus_spec (xs : List Expr) : ∀ x : Expr, (∀ y ∈ x :: xs, y.ty = some .cs) →
    (Expr.plus x xs).ty = some .cs ∧ (∀ f, (Expr.plus x xs).Uses f ↔ ∃ y ∈ x :: xs, y.Uses f) ∧
      (xs ≠ [] → (Expr.plus x xs).Compound) ∧
      ∀ E, (Expr.plus x xs).den E = (do let v ← x.den E; let w ← Expr.dens E xs; .ok (v + w)) := by
  induction xs with
  | nil =>
    intro x h
    refine ⟨h x (by simp), by simp [Expr.plus], by simp, fun E => ?_⟩
    simp only [Expr.plus, List.foldl_nil, Expr.dens]
    cases x.den E <;> simp [bind, Except.bind]
  | cons y ys ih =>
    intro x h
    have hx := h x (by simp)
    have hy := h y (by simp)
    have hxy : (Expr.add x y).ty = some .cs := by simp [Expr.ty, hx, hy, Ty.join]
    obtain ⟨h1, h2, h3, h4⟩ := ih (.add x y) (by
      intro z hz
      rcases List.mem_cons.1 hz with rfl | hz
      · exact hxy
      · exact h z (by simp [hz]))
    refine ⟨h1, fun f => ?_, fun _ => ?_, fun E => ?_⟩
    · rw [show Expr.plus x (y :: ys) = Expr.plus (.add x y) ys from rfl, h2 f]
      simp only [List.mem_cons, exists_eq_or_imp]
      constructor
      · rintro (h | h)
        · cases h with
          | addLeft h => exact .inl h
          | addRight h => exact .inr (.inl h)
          | numLeft h1 h2 => rw [hx] at h1; cases h1
          | numRight h1 h2 => rw [hy] at h2; cases h2
        · exact .inr (.inr h)
      · rintro (h | h | h)
        · exact .inl (.addLeft h)
        · exact .inl (.addRight h)
        · exact .inr h
    · by_cases hys : ys = []
      · subst hys; trivial
      · exact h3 hys
    · rw [show Expr.plus x (y :: ys) = Expr.plus (.add x y) ys from rfl, h4 E]
      simp only [Expr.den, Expr.dens]
      cases x.den E with
      | error e => rfl
      | ok v => cases y.den E with
        | error e => rfl
        | ok w => cases Expr.dens E ys with
          | error e => rfl
          | ok u => simp [bind, Except.bind]; ring

theorem uses_sum {xs : List Expr} (h : ∀ y ∈ xs, y.ty = some .cs) (hne : xs ≠ []) (f : GridFn) :
    (Expr.sum xs).Uses f ↔ (∃ y ∈ xs, y.Uses f) ∨ f = constGrid := by
  constructor
  · intro h
    cases h with
    | sum hx h => exact .inl ⟨_, hx, h⟩
    | sumZero h => exact .inr rfl
  · rintro (⟨y, hy, h⟩ | rfl)
    · exact .sum hy h
    · exact .sumZero (tys_all h hne)

/-- C101, the part that holds: built-in `sum` gives the same values, and for limits its grid is that of the written-out sum together
with the equidistant energy grid, which comes from the number 0 that `sum` begins with.
Missing for the full statement: the grids themselves, which differ (`C101_refuted`). -/
theorem C101_partial (x : Expr) (xs : List Expr) (h : ∀ y ∈ x :: xs, y.ty = some .cs) :
    ∃ o o', (Expr.sum (x :: xs)).run = .ok o ∧ (Expr.plus x xs).run = .ok o' ∧ (∀ E, o.call E = o'.call E) ∧
      (∀ a b n g', 0 ≤ n → o'.probGrid (.lims a b) n = .ok g' → ∃ g ge, o.probGrid (.lims a b) n = .ok g ∧
        energyGrid (.lims a b) n = .ok ge ∧ ∀ v, v ∈ g ↔ v ∈ g' ∨ v ∈ ge) ∧
      ∀ c n g, o.probGrid (.cov c) n ≠ .ok g := by
  obtain ⟨hty', hu', -, hd⟩ := plus_spec xs x h
  have hty : (Expr.sum (x :: xs)).ty = some .cs := tys_all h (by simp)
  have hu := uses_sum h (List.cons_ne_nil x xs)
  have hden : ∀ E, (Expr.sum (x :: xs)).den E = (Expr.plus x xs).den E := fun E => by
    rw [hd E]; simp only [Expr.den, Expr.dens]
  obtain ⟨o, hr, wo, vo⟩ := C03_expression_compositional _ _ hty
  obtain ⟨o', hr', wo', vo'⟩ := C03_expression_compositional _ _ hty'
  refine ⟨o, o', hr, hr', fun E => by rw [call_eq_value _ wo, call_eq_value _ wo', vo, vo', hden], ?_, ?_⟩
  · intro a b n g' hn hg'
    obtain ⟨o1, h1, hex, hall⟩ := C100_expression_grid _ hty (.lims a b) n
    obtain ⟨o1', h1', hex', hall'⟩ := C100_expression_grid _ hty' (.lims a b) n
    rw [hr] at h1; cases h1
    rw [hr'] at h1'; cases h1'
    obtain ⟨ge, hge⟩ : ∃ ge, energyGrid (.lims a b) n = .ok ge := by
      unfold energyGrid linspace
      simp only [not_lt.2 hn, if_false]
      split <;> exact ⟨_, rfl⟩
    obtain ⟨g, hg⟩ := hex.2 (by
      intro f hf
      rcases (hu f).1 hf with hf | rfl
      · exact hex'.1 ⟨g', hg'⟩ f ((hu' f).2 hf)
      · exact ⟨ge, hge⟩)
    refine ⟨g, ge, hg, hge, fun v => ?_⟩
    rw [(hall g hg).2 v, (hall' g' hg').2 v]
    constructor
    · rintro ⟨f, hf, gf, hgf, hv⟩
      rcases (hu f).1 hf with hf | rfl
      · exact .inl ⟨f, (hu' f).2 hf, gf, hgf, hv⟩
      · have : gf = ge := by
          have e : constGrid (.lims a b) n = .ok ge := hge
          rw [e] at hgf; cases hgf; rfl
        exact .inr (this ▸ hv)
    · rintro (⟨f, hf, gf, hgf, hv⟩ | hv)
      · exact ⟨f, (hu f).2 (.inl ((hu' f).1 hf)), gf, hgf, hv⟩
      · exact ⟨constGrid, (hu _).2 (.inr rfl), ge, hge, hv⟩
  · intro c n g hg
    obtain ⟨o1, h1, hex, -⟩ := C100_expression_grid _ hty (.cov c) n
    rw [hr] at h1; cases h1
    obtain ⟨gf, hgf⟩ := hex.1 ⟨g, hg⟩ constGrid ((hu _).2 (.inr rfl))
    simp [constGrid] at hgf

/-- C101 is false of the code: the sum of two Breit-Wigner resonances has a grid for every coverage in (0,1), but their built-in
`sum` has none. -/
theorem C101_refuted : ¬ C101Statement := by
  intro hC
  obtain ⟨r, hr, hI⟩ := exBreitWigner
  have hbw : IsBreitWigner r := ⟨_, _, _, _, _, hr, exExcited_width, by norm_num⟩
  obtain ⟨o, o', h1, h2, -, -, h4⟩ := C101_partial (.atom r.toLeaf) [.atom r.toLeaf] (by simp [Expr.ty])
  obtain ⟨-, p, p', hp, hp', hsame⟩ := hC (.atom r.toLeaf) [.atom r.toLeaf] (by simp [Expr.ty]) (by simp)
  rw [h1] at hp; cases hp
  rw [h2] at hp'; cases hp'
  have e : o' = .wsum ([r, r].map fun r => .leaf r.toLeaf) [.num 1, .num 1] := by
    simp [Expr.plus, Expr.run, add, csAdd, bind, Except.bind] at h2
    exact h2.symm
  obtain ⟨g, hg⟩ := C15_partial [r, r] [.num 1, .num 1] (by simp [hbw]) (1 / 2) (by norm_num) (by norm_num) 5 (by norm_num)
  rw [← e] at hg
  exact h4 _ _ g ((hsame _ _ g).2 hg)

example (l l' : Leaf) : ∀ y ∈ [Expr.atom l, .mul (.num 2) (.atom l')], y.ty = some .cs := by simp [Expr.ty, Ty.join]

end Ries
