import Verif.Model.ArrayFactors

/-!
# C159: arrays of factors
-/

namespace Ries

/-! ## Specification -/

/-- an expression with numbers and arrays as factors -/
inductive FExpr
  | cs (l : Leaf)
  | const (c : ℝ)
  | scale (c : ℝ) (e : FExpr)
  | scaleRight (e : FExpr) (f : Val)
  | add (e₁ e₂ : FExpr)

/-- entry `i` of a number (the number itself) or of an array -/
def Val.entry (i : ℕ) : Val → ℝ
  | .sc x => x
  | .arr xs => xs.getD i 0

/-- a number, or an array of length `n` -/
def Val.Fits (n : ℕ) : Val → Prop
  | .sc _ => True
  | .arr xs => xs.length = n

namespace FExpr

/-- all arrays have length `n` -/
def Fits (n : ℕ) : FExpr → Prop
  | cs _ => True
  | const _ => True
  | scale _ e => e.Fits n
  | scaleRight e f => e.Fits n ∧ f.Fits n
  | add e₁ e₂ => e₁.Fits n ∧ e₂.Fits n

/-- all constituents have a value everywhere -/
def Total (σ : Leaf → ℝ → ℝ) : FExpr → Prop
  | cs l => ∀ E, l.eval E = .ok (σ l E)
  | const _ => True
  | scale _ e => e.Total σ
  | scaleRight e _ => e.Total σ
  | add e₁ e₂ => e₁.Total σ ∧ e₂.Total σ

/-- the intended value of entry `i` at the energy `E` -/
def value (σ : Leaf → ℝ → ℝ) (i : ℕ) (E : ℝ) : FExpr → ℝ
  | cs l => σ l E
  | const c => c
  | scale c e => c * e.value σ i E
  | scaleRight e f => e.value σ i E * f.entry i
  | add e₁ e₂ => e₁.value σ i E + e₂.value σ i E

/-- what Python computes for the expression -/
def build : FExpr → Except Err FObj
  | cs l => .ok (.leaf l)
  | const c => .ok (.const c)
  | scale c e => do FObj.mulLeft (.sc c) (← e.build)
  | scaleRight e f => do FObj.mulRight (← e.build) f
  | add e₁ e₂ => do
      let a ← e₁.build
      let b ← e₂.build
      FObj.add a b

end FExpr

/-! ## Lemmas -/

namespace Val

theorem bcast_fits {n : ℕ} {f : ℝ → ℝ → ℝ} {v w : Val} (hv : v.Fits n) (hw : w.Fits n) :
    ∃ u, bcast f v w = .ok u ∧ u.Fits n ∧ ∀ i < n, u.entry i = f (v.entry i) (w.entry i) := by
  cases v with
  | sc x =>
    cases w with
    | sc y => exact ⟨_, rfl, trivial, fun i _ => rfl⟩
    | arr ys =>
      refine ⟨_, rfl, by simpa [Fits] using hw, fun i hi => ?_⟩
      have : i < ys.length := by rw [show ys.length = n from hw]; exact hi
      simp [entry, List.getD, this]
  | arr xs =>
    have hx : xs.length = n := hv
    cases w with
    | sc y =>
      refine ⟨_, rfl, by simpa [Fits] using hv, fun i hi => ?_⟩
      have : i < xs.length := by omega
      simp [entry, List.getD, this]
    | arr ys =>
      have hy : ys.length = n := hw
      refine ⟨arr (List.zipWith f xs ys), by simp only [bcast, if_pos (hx.trans hy.symm)], by simp [Fits, hx, hy], fun i hi => ?_⟩
      have h1 : i < xs.length := by omega
      have h2 : i < ys.length := by omega
      simp [entry, List.getD, h1, h2]

theorem iadd_fits {n : ℕ} {v w : Val} (hv : v.Fits n) (hw : w.Fits n) :
    ∃ u, iadd v w = .ok u ∧ u.Fits n ∧ ∀ i < n, u.entry i = v.entry i + w.entry i := by
  obtain ⟨u, h1, h2, h3⟩ := bcast_fits (f := (· + ·)) hv hw
  cases v with
  | sc x => exact ⟨u, h1, h2, h3⟩
  | arr xs =>
    have hx : xs.length = n := hv
    cases u with
    | sc y =>
      exfalso
      cases w with
      | sc y => simp [bcast] at h1
      | arr ys =>
        have hy : ys.length = n := hw
        simp [bcast, hx, hy] at h1
    | arr us =>
      have hu : us.length = n := h2
      exact ⟨arr us, by simp [iadd, h1, bind, Except.bind, hu, hx], h2, h3⟩

end Val

/-- an object of the shape the operators build: its value at fitting energies, entry by entry -/
def FObj.Means (n : ℕ) (v : ℕ → ℝ → ℝ) (o : FObj) : Prop :=
  ∀ E : Val, E.Fits n → ∃ u, o.call E = .ok u ∧ u.Fits n ∧ ∀ i < n, u.entry i = v i (E.entry i)

/-- value of a list of reactions with scale factors -/
def wvalue : List (ℕ → ℝ → ℝ) → List Val → ℕ → ℝ → ℝ
  | v :: vs, s :: ss, i, E => s.entry i * v i E + wvalue vs ss i E
  | _, _, _, _ => 0

theorem wvalue_append (vs vs' : List (ℕ → ℝ → ℝ)) (ss ss' : List Val) (h : vs.length = ss.length) (i : ℕ) (E : ℝ) :
    wvalue (vs ++ vs') (ss ++ ss') i E = wvalue vs ss i E + wvalue vs' ss' i E := by
  induction vs generalizing ss with
  | nil => cases ss with
    | nil => simp [wvalue]
    | cons s ss => simp at h
  | cons v vs ih => cases ss with
    | nil => simp at h
    | cons s ss =>
      simp only [List.cons_append, wvalue, ih ss (by simpa using h)]
      ring

/-- the reactions and scale factors of a weighted sum with given meanings -/
structure Entries (n : ℕ) (rs : List FObj) (ss : List Val) (vs : List (ℕ → ℝ → ℝ)) : Prop where
  means : List.Forall₂ (fun r v => FObj.Means n v r) rs vs
  len : rs.length = ss.length
  fits : ∀ s ∈ ss, s.Fits n

theorem callLoop_fits {n : ℕ} {rs : List FObj} {ss : List Val} {vs : List (ℕ → ℝ → ℝ)} (h : Entries n rs ss vs) {acc E : Val}
    (ha : acc.Fits n) (hE : E.Fits n) :
    ∃ u, FObj.callLoop rs ss acc E = .ok u ∧ u.Fits n ∧ ∀ i < n, u.entry i = acc.entry i + wvalue vs ss i (E.entry i) := by
  obtain ⟨hm, hl, hf⟩ := h
  induction hm generalizing ss acc with
  | nil => exact ⟨acc, by simp [FObj.callLoop], ha, fun i _ => by simp [wvalue]⟩
  | @cons r v rs vs hr _ ih =>
    cases ss with
    | nil => simp at hl
    | cons s ss =>
      obtain ⟨u1, c1, f1, e1⟩ := hr E hE
      obtain ⟨u2, c2, f2, e2⟩ := Val.bcast_fits (f := (· * ·)) (hf s (by simp)) f1
      obtain ⟨u3, c3, f3, e3⟩ := Val.iadd_fits ha f2
      obtain ⟨u, c, f, e⟩ := ih (ss := ss) (acc := u3) f3 (by simpa using hl) (fun s hs => hf s (by simp [hs]))
      refine ⟨u, ?_, f, fun i hi => ?_⟩
      · simp only [FObj.callLoop, c1, c2, c3, bind, Except.bind]
        exact c
      · rw [e i hi, e3 i hi, e2 i hi, e1 i hi, wvalue]
        ring

theorem Entries.means_wsum {n : ℕ} {rs : List FObj} {ss : List Val} {vs : List (ℕ → ℝ → ℝ)} (h : Entries n rs ss vs) :
    FObj.Means n (wvalue vs ss) (.wsum rs ss) := by
  intro E hE
  obtain ⟨u, c, f, e⟩ := callLoop_fits h (acc := .sc 0) trivial hE
  exact ⟨u, by simp only [FObj.call]; exact c, f, fun i hi => by rw [e i hi]; simp [Val.entry]⟩

theorem pairScales_same : ∀ (rs : List FObj) (ss : List Val), rs.length = ss.length → FObj.pairScales rs ss = .ok ss
  | [], [], _ => rfl
  | _ :: rs, s :: ss, h => by
    simp [FObj.pairScales, pairScales_same rs ss (by simpa using h), Except.map]
  | [], _ :: _, h => by simp at h
  | _ :: _, [], h => by simp at h

theorem mulScales_fits {n : ℕ} {f : Val} (hf : f.Fits n) : ∀ (rs : List FObj) (ss : List Val) (vs : List (ℕ → ℝ → ℝ)),
    rs.length = ss.length → (∀ s ∈ ss, s.Fits n) →
    ∃ ts, FObj.mulScales f rs ss = .ok ts ∧ rs.length = ts.length ∧ (∀ t ∈ ts, t.Fits n) ∧
      ∀ i < n, ∀ E, wvalue vs ts i E = f.entry i * wvalue vs ss i E
  | [], [], vs, _, _ => ⟨[], rfl, rfl, by simp, fun i _ E => by cases vs <;> simp [wvalue]⟩
  | r :: rs, s :: ss, vs, h, hs => by
    obtain ⟨p, c, hp, e⟩ := Val.bcast_fits (f := (· * ·)) hf (hs s (by simp))
    obtain ⟨ts, c', hl, ht, e'⟩ := mulScales_fits hf rs ss vs.tail (by simpa using h) (fun s hs' => hs s (by simp [hs']))
    refine ⟨p :: ts, by simp [FObj.mulScales, c, c', bind, Except.bind], by simpa using hl, ?_, fun i hi E => ?_⟩
    · intro t ht'
      rcases List.mem_cons.1 ht' with rfl | h'
      · exact hp
      · exact ht t h'
    · cases vs with
      | nil => simp [wvalue]
      | cons v vs =>
        simp only [wvalue, e i hi]
        have := e' i hi E
        simp only [List.tail_cons] at this
        rw [this]
        ring
  | [], _ :: _, _, h, _ => by simp at h
  | _ :: _, [], _, h, _ => by simp at h

/-- shapes of the objects built: a constituent or a weighted sum -/
inductive FBuilt (n : ℕ) (v : ℕ → ℝ → ℝ) : FObj → Prop
  | leaf (l : Leaf) (h : FObj.Means n v (.leaf l)) : FBuilt n v (.leaf l)
  | const (c : ℝ) (h : FObj.Means n v (.const c)) : FBuilt n v (.const c)
  | wsum (rs : List FObj) (ss : List Val) (vs : List (ℕ → ℝ → ℝ)) (h : Entries n rs ss vs)
      (e : ∀ i < n, ∀ E, wvalue vs ss i E = v i E) : FBuilt n v (.wsum rs ss)

theorem FObj.Means.congr {n : ℕ} {v v' : ℕ → ℝ → ℝ} {o : FObj} (h : o.Means n v) (e : ∀ i < n, ∀ E, v i E = v' i E) : o.Means n v' := by
  intro E hE
  obtain ⟨u, c, f, e'⟩ := h E hE
  exact ⟨u, c, f, fun i hi => by rw [e' i hi, e i hi]⟩

theorem FBuilt.means {n : ℕ} {v : ℕ → ℝ → ℝ} {o : FObj} (h : FBuilt n v o) : o.Means n v := by
  cases h with
  | leaf l h => exact h
  | const c h => exact h
  | wsum rs ss vs h e => exact h.means_wsum.congr e

theorem entries_one {n : ℕ} {v : ℕ → ℝ → ℝ} {o : FObj} (h : o.Means n v) {f : Val} (hf : f.Fits n) : Entries n [o] [f] [v] :=
  ⟨.cons h .nil, rfl, by simpa using hf⟩

theorem FBuilt.mulSelf {n : ℕ} {v : ℕ → ℝ → ℝ} {o : FObj} (h : FBuilt n v o) {f : Val} (hf : f.Fits n) :
    ∃ o', o.mulSelf f = .ok o' ∧ FBuilt n (fun i E => f.entry i * v i E) o' := by
  cases h with
  | leaf l h => exact ⟨_, rfl, .wsum _ _ _ (entries_one h hf) fun i _ E => by simp [wvalue]⟩
  | const c h => exact ⟨_, rfl, .wsum _ _ _ (entries_one h hf) fun i _ E => by simp [wvalue]⟩
  | wsum rs ss vs h e =>
    obtain ⟨ts, c, hl, ht, e'⟩ := mulScales_fits hf rs ss vs h.len h.fits
    exact ⟨.wsum rs ts, by simp [FObj.mulSelf, c, Except.map], .wsum _ _ vs ⟨h.means, hl, ht⟩ fun i hi E => by rw [e' i hi, e i hi]⟩

theorem FBuilt.add {n : ℕ} {v w : ℕ → ℝ → ℝ} {o p : FObj} (h : FBuilt n v o) (h' : FBuilt n w p) :
    ∃ q, o.add p = .ok q ∧ FBuilt n (fun i E => v i E + w i E) q := by
  have two : ∀ o p : FObj, o.Means n v → p.Means n w → FBuilt n (fun i E => v i E + w i E) (.wsum [o, p] [.sc 1, .sc 1]) := fun o p h h' =>
    .wsum _ _ [v, w] ⟨.cons h (.cons h' .nil), rfl, by simp [Val.Fits]⟩ fun i _ E => by simp [wvalue, Val.entry]
  cases h with
  | leaf l h => exact ⟨_, rfl, two _ _ h h'.means⟩
  | const c h => exact ⟨_, rfl, two _ _ h h'.means⟩
  | wsum rs ss vs h e =>
    have hps := pairScales_same rs ss h.len
    have hlv : vs.length = ss.length := h.means.length_eq.symm.trans h.len
    have one : ∀ p : FObj, p.Means n w → FBuilt n (fun i E => v i E + w i E) (.wsum (rs ++ [p]) (ss ++ [.sc 1])) := fun p hp =>
      .wsum _ _ (vs ++ [w]) ⟨List.rel_append h.means (.cons hp .nil), by simp [h.len], by
        intro s hs
        rcases List.mem_append.1 hs with h1 | h1
        · exact h.fits s h1
        · simp at h1; subst h1; trivial⟩ fun i hi E => by
        rw [wvalue_append _ _ _ _ hlv, e i hi]; simp [wvalue, Val.entry]
    cases h' with
    | leaf l h1 => exact ⟨_, by simp only [FObj.add, hps, bind, Except.bind], one _ h1⟩
    | const c h1 => exact ⟨_, by simp only [FObj.add, hps, bind, Except.bind], one _ h1⟩
    | wsum rs2 ss2 vs2 h2 e2 =>
      refine ⟨.wsum (rs ++ rs2) (ss ++ ss2), by simp only [FObj.add, hps, pairScales_same rs2 ss2 h2.len, bind, Except.bind], .wsum _ _ (vs ++ vs2)
        ⟨List.rel_append h.means h2.means, by simp [h.len, h2.len], ?_⟩ fun i hi E => ?_⟩
      · intro s hs
        rcases List.mem_append.1 hs with h1 | h1
        · exact h.fits s h1
        · exact h2.fits s h1
      · rw [wvalue_append _ _ _ _ hlv, e i hi, e2 i hi]

theorem mapM_total {f : ℝ → Except Err ℝ} {g : ℝ → ℝ} (h : ∀ x, f x = .ok (g x)) (xs : List ℝ) : xs.mapM f = .ok (xs.map g) := by
  induction xs with
  | nil => rfl
  | cons x xs ih => simp [List.mapM_cons, h, ih, bind, Except.bind, pure, Except.pure]

theorem FExpr.built {n : ℕ} {σ : Leaf → ℝ → ℝ} (e : FExpr) (hf : e.Fits n) (ht : e.Total σ) :
    ∃ o, e.build = .ok o ∧ FBuilt n (fun i E => e.value σ i E) o := by
  induction e with
  | cs l =>
    refine ⟨_, rfl, .leaf l fun E hE => ?_⟩
    have ht' : ∀ E, l.eval E = .ok (σ l E) := ht
    cases E with
    | sc E => exact ⟨.sc (σ l E), by simp [FObj.call, ht', Except.map], trivial, fun i _ => rfl⟩
    | arr Es =>
      refine ⟨.arr (Es.map (σ l)), by simp [FObj.call, mapM_total ht', Except.map], by simpa [Val.Fits] using hE, fun i hi => ?_⟩
      have : i < Es.length := by rw [show Es.length = n from hE]; exact hi
      simp [Val.entry, List.getD, this, FExpr.value]
  | const c => exact ⟨_, rfl, .const c fun E _ => ⟨.sc c, by simp [FObj.call], trivial, fun i _ => rfl⟩⟩
  | scale c e ih =>
    obtain ⟨o, h1, h2⟩ := ih hf ht
    obtain ⟨o', h3, h4⟩ := h2.mulSelf (f := .sc c) trivial
    exact ⟨o', by simp [FExpr.build, h1, bind, Except.bind, FObj.mulLeft, h3], h4⟩
  | scaleRight e f ih =>
    obtain ⟨o, h1, h2⟩ := ih hf.1 ht
    obtain ⟨o', h3, h4⟩ := h2.mulSelf hf.2
    refine ⟨o', by simp [FExpr.build, h1, bind, Except.bind, FObj.mulRight, h3], ?_⟩
    have : (fun i E => FExpr.value σ i E (e.scaleRight f)) = fun i E => f.entry i * e.value σ i E := by
      funext i E; simp only [FExpr.value]; ring
    rw [this]
    exact h4
  | add e₁ e₂ ih₁ ih₂ =>
    obtain ⟨o₁, h1, h2⟩ := ih₁ hf.1 ht.1
    obtain ⟨o₂, h3, h4⟩ := ih₂ hf.2 ht.2
    obtain ⟨q, h5, h6⟩ := h2.add h4
    exact ⟨q, by simp [FExpr.build, h1, h3, bind, Except.bind, h5], h6⟩

/-! ## C159 -/

/-- C159 where arrays are right factors: an expression of cross sections, constants, numbers and arrays of equal length is built without an
exception, and its value at a number (or at an array of energies of this length) has at every entry the value of the expression with
the corresponding entries of the arrays as factors (and of the energies). -/
theorem C159_partial {n : ℕ} {σ : Leaf → ℝ → ℝ} (e : FExpr) (hf : e.Fits n) (ht : e.Total σ) (E : Val) (hE : E.Fits n) :
    ∃ o v, e.build = .ok o ∧ o.call E = .ok v ∧ v.Fits n ∧ ∀ i < n, v.entry i = e.value σ i (E.entry i) := by
  obtain ⟨o, h1, h2⟩ := e.built hf ht
  obtain ⟨v, h3, h4, h5⟩ := h2.means E hE
  exact ⟨o, v, h1, h3, h4, h5⟩

/-- C159 is false of the code for arrays on the left: the product with any cross section is an array of cross sections, which cannot be
evaluated; its entries are the products with the entries of the array. -/
theorem C159_refuted {n : ℕ} {σ : Leaf → ℝ → ℝ} (e : FExpr) (hf : e.Fits n) (ht : e.Total σ) (xs : List ℝ) (E : Val) :
    ∃ o os, e.build = .ok o ∧ FObj.mulLeft (.arr xs) o = .ok (.objs os) ∧ FObj.call (.objs os) E = .error .typeError ∧
      List.Forall₂ (fun x p => FObj.mulLeft (.sc x) o = .ok p) xs os := by
  obtain ⟨o, h1, h2⟩ := e.built hf ht
  choose p hp _ using fun x : ℝ => h2.mulSelf (f := .sc x) trivial
  have hm : xs.mapM (fun x => o.mulSelf (.sc x)) = .ok (xs.map p) := by
    induction xs with
    | nil => rfl
    | cons x xs ih => rw [List.mapM_cons, hp x, ih]; rfl
  refine ⟨o, xs.map p, h1, by simp [FObj.mulLeft, hm, Except.map], by simp [FObj.call], ?_⟩
  rw [List.forall₂_map_right_iff, List.forall₂_same]
  exact fun x _ => hp x

/-- Arrays of different lengths (none of them 1) are not paired up: evaluating a product with an array of factors at an array of energies of
another length raises `ValueError`. -/
theorem C159_mismatch {σ : ℝ → ℝ} (l : Leaf) (hl : ∀ E, l.eval E = .ok (σ E)) (xs Es : List ℝ) (hne : xs.length ≠ Es.length)
    (hx : xs.length ≠ 1) (hE : Es.length ≠ 1) :
    ∃ o, FObj.mulRight (.leaf l) (.arr xs) = .ok o ∧ o.call (.arr Es) = .error .valueError := by
  refine ⟨_, rfl, ?_⟩
  have h : Val.bcast (· * ·) (.arr xs) (.arr (Es.map σ)) = .error .valueError := by
    simp only [Val.bcast, List.length_map, if_neg hne]
    split
    · simp at hx
    · rename_i h; have := congrArg List.length h; simp at this; omega
    · rfl
  simp [FObj.call, FObj.callLoop, mapM_total hl, Except.map, bind, Except.bind, h]

/-- Addition is not commutative once an array of one factor is involved: a constant with such a factor plus a cross section cannot be
evaluated at several energies (the sum is accumulated in place in an array with one entry), in the other order it can. -/
theorem C159_order_refuted {σ : ℝ → ℝ} (l : Leaf) (hl : ∀ E, l.eval E = .ok (σ E)) (c x : ℝ) (Es : List ℝ) (hE : Es.length ≠ 1) :
    ∃ p s s', FObj.mulRight (.const c) (.arr [x]) = .ok p ∧ FObj.add p (.leaf l) = .ok s ∧ FObj.add (.leaf l) p = .ok s' ∧
      s.call (.arr Es) = .error .valueError ∧ s'.call (.arr Es) = .ok (.arr (Es.map fun E => σ E + x * c)) := by
  refine ⟨.wsum [.const c] [.arr [x]], .wsum [.const c, .leaf l] [.arr [x], .sc 1], .wsum [.leaf l, .wsum [.const c] [.arr [x]]] [.sc 1, .sc 1],
    rfl, rfl, rfl, ?_, ?_⟩
  · have h1 : ¬ 1 = Es.length := fun h => hE h.symm
    simp [FObj.call, FObj.callLoop, mapM_total hl, Except.map, bind, Except.bind, Val.bcast, Val.iadd, h1, hE]
  · have h1 : ¬ Es.length = 1 := hE
    have h2 : Val.bcast (· + ·) (.arr (Es.map σ)) (.arr [x * c]) = .ok (.arr (Es.map fun E => σ E + x * c)) := by
      simp only [Val.bcast, List.length_map, List.length_singleton, if_neg h1]
      split
      · rename_i h
        have := congrArg List.length h
        simp at this
        omega
      · rename_i h _
        obtain rfl := (List.cons.inj h).1
        simp
      · rename_i h
        exact absurd rfl (h _)
    have h3 : Val.iadd (.arr (Es.map σ)) (.arr [x * c]) = .ok (.arr (Es.map fun E => σ E + x * c)) := by
      simp only [Val.iadd, h2, bind, Except.bind]
      simp
    have h4 : Val.bcast (· * ·) (.sc 1) (.arr (Es.map σ)) = .ok (.arr (Es.map σ)) := by simp [Val.bcast]
    have h5 : Val.iadd (.sc 0) (.arr (Es.map σ)) = .ok (.arr (Es.map σ)) := by simp [Val.iadd, Val.bcast]
    have h6 : Val.bcast (· * ·) (.sc 1) (.arr [x * c]) = .ok (.arr [x * c]) := by simp [Val.bcast]
    have h7 : Val.bcast (· * ·) (.arr [x]) (.sc c) = .ok (.arr [x * c]) := by simp [Val.bcast]
    have h8 : Val.iadd (.sc 0) (.arr [x * c]) = .ok (.arr [x * c]) := by simp [Val.iadd, Val.bcast]
    simp only [FObj.call, FObj.callLoop, mapM_total hl, Except.map, bind, Except.bind, h4, h5, h6, h7, h8, h3]

/-- The hypotheses are met: (σ * [1, 2] + 3) * [4, 5] with two energies. -/
example : ∃ (l : Leaf) (σ : Leaf → ℝ → ℝ) (e : FExpr), e.Fits 2 ∧ e.Total σ ∧ (Val.arr [1, 2]).Fits 2 ∧
    e = .scaleRight (.add (.scaleRight (.cs l) (.arr [1, 2])) (.const 3)) (.arr [4, 5]) :=
  ⟨⟨fun E => .ok E, fun _ _ => .ok []⟩, fun _ E => E,
    .scaleRight (.add (.scaleRight (.cs ⟨fun E => .ok E, fun _ _ => .ok []⟩) (.arr [1, 2])) (.const 3)) (.arr [4, 5]), ⟨⟨⟨trivial, rfl⟩, trivial⟩, rfl⟩, ⟨fun _ => rfl, trivial⟩, rfl, rfl⟩

end Ries
