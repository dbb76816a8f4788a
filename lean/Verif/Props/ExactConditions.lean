import Verif.Props.Darboux
import Verif.Props.QuadPartition
import Verif.Props.Resonance
import Verif.Props.GridVoigt
import Verif.Props.Coverage
import Verif.Props.Elements
import Verif.Lemmas.NaturalElements

/-! # Exact conditions for some properties that do not hold in general (C15, C17, C60, C65, C69) -/

namespace Ries

open MeasureTheory Set Text

/-! ## C65 -/

theorem bmul_ok_iff (a b : List ℝ) : (∃ c, bmul a b = .ok c) ↔ a.length = b.length ∨ a.length = 1 ∨ b.length = 1 := by
  unfold bmul
  by_cases h : a.length = b.length
  · simp [h]
  · rw [if_neg h]
    match a, b, h with
    | [x], b, _ => simp
    | [], [y], _ => simp
    | x :: x' :: xs, [y], _ => simp
    | [], [], h => simp at h
    | [], y :: y' :: ys, _ => simp
    | x :: x' :: xs, [], _ => simp
    | x :: x' :: xs, y :: y' :: ys, h => simpa using h

theorem bmul_error {a b : List ℝ} (h : ¬ ∃ c, bmul a b = .ok c) : bmul a b = .error .valueError := by
  have : ∀ e, bmul a b = .error e → e = .valueError := by
    intro e he
    unfold bmul at he
    split at he
    · simp at he
    · split at he
      · simp at he
      · simp at he
      · simpa using he.symm
  rcases hb : bmul a b with e | c
  · rw [this e hb]
  · exact absurd ⟨c, hb⟩ h

/-- C65, exact condition: values of a function and grid points are accepted exactly if there are values and the numbers of intervals
agree, or one of the arrays has two entries. Otherwise a `ValueError` is raised. -/
theorem C65_accepted_iff (x y : List ℝ) :
    ((∃ r, darboux (.vals (.arr y)) x = .ok r) ↔
      y ≠ [] ∧ (x.length - 1 = y.length - 1 ∨ x.length = 2 ∨ y.length = 2)) ∧
    ((¬ ∃ r, darboux (.vals (.arr y)) x = .ok r) → darboux (.vals (.arr y)) x = .error .valueError) := by
  cases y with
  | nil => exact ⟨by simp [darboux], fun _ => rfl⟩
  | cons y ys =>
    have hlen : ∀ g : ℝ → ℝ → ℝ, (pairsWith g y ys).length = ys.length := fun g => pairsWith_length g y ys
    have hd : (diffs x).length = x.length - 1 := by
      cases x with
      | nil => rfl
      | cons x xs => rw [diffs_cons, diffsFrom_length]; simp
    have key : ∀ g : ℝ → ℝ → ℝ, (∃ c, bmul (pairsWith g y ys) (diffs x) = .ok c) ↔
        (x.length - 1 = (y :: ys).length - 1 ∨ x.length = 2 ∨ (y :: ys).length = 2) := by
      intro g
      rw [bmul_ok_iff, hlen, hd, List.length_cons]
      omega
    by_cases h : x.length - 1 = (y :: ys).length - 1 ∨ x.length = 2 ∨ (y :: ys).length = 2
    · obtain ⟨c, hc⟩ := (key min).2 h
      obtain ⟨c', hc'⟩ := (key max).2 h
      have : ∃ r, darboux (.vals (.arr (y :: ys))) x = .ok r := by
        simp only [darboux, zipWith_dropLast, hc, hc', bind, Except.bind]
        exact ⟨_, rfl⟩
      exact ⟨⟨fun _ => ⟨by simp, h⟩, fun _ => this⟩, fun hn => absurd this hn⟩
    · have hb := bmul_error (mt (key min).1 h)
      have : darboux (.vals (.arr (y :: ys))) x = .error .valueError := by
        simp only [darboux, zipWith_dropLast, hb, bind, Except.bind]
      rw [this]
      exact ⟨by simp only [reduceCtorEq, exists_false, false_iff]; exact fun hh => h hh.2, fun _ => rfl⟩

theorem diffsFrom_sum (a : ℝ) (l : List ℝ) : (diffsFrom a l).sum = (a :: l).getLast (by simp) - a := by
  induction l generalizing a with
  | nil => simp [diffsFrom]
  | cons b l ih =>
    rw [diffsFrom, List.sum_cons, ih, List.getLast_cons (l := b :: l) (by simp)]
    ring

/-- C65: what is calculated if two values meet any other number of grid points: the two values are taken for the whole range. -/
theorem C65_two_values (a b x0 : ℝ) (xs : List ℝ) (h : xs.length ≠ 1) :
    darboux (.vals (.arr [a, b])) (x0 :: xs) =
      .ok (min a b * ((x0 :: xs).getLast (by simp) - x0),
        |max a b * ((x0 :: xs).getLast (by simp) - x0) - min a b * ((x0 :: xs).getLast (by simp) - x0)|) := by
  have hb : ∀ g : ℝ, bmul [g] (diffs (x0 :: xs)) = .ok ((diffs (x0 :: xs)).map (g * ·)) := by
    intro g
    unfold bmul
    rw [if_neg]
    rw [diffs_cons, diffsFrom_length]
    simpa using Ne.symm h
  have hs : ∀ g : ℝ, ((diffs (x0 :: xs)).map (g * ·)).sum = g * ((x0 :: xs).getLast (by simp) - x0) := by
    intro g
    rw [List.sum_map_mul_left, List.map_id', diffs_cons, diffsFrom_sum]
  simp only [darboux, List.dropLast, List.drop, List.zipWith, hb, hs, bind, Except.bind]

/-- three values for two points are accepted, three for four are not -/
example : (∃ r, darboux (.vals (.arr [1, 2, 3])) [0, 1] = .ok r) ∧ ¬ ∃ r, darboux (.vals (.arr [1, 2, 3])) [0, 1, 2, 3] = .ok r :=
  ⟨(C65_accepted_iff _ _).1.2 (by simp), fun h => by simpa using (C65_accepted_iff _ _).1.1 h⟩

/-! ## C69 -/

/-- C69: the factor in `C69_error_bound_partial` cannot be improved: for every number of intervals there are accurate pieces for which
the true error is the square root of this number times the returned error. -/
theorem C69_factor_sharp (n : ℕ) (hn : 0 < n) (rest : List (ℝ × ℝ)) :
    ∃ (nquad : NQuad) (f : List ℝ → ℝ) (x0 : List ℝ) (hne : x0 ≠ []) (I D : ℝ), x0.length = n + 1 ∧ x0.Pairwise (· < ·) ∧
      ContArgs (rest.length + 1) f ∧ PiecesAccurate nquad f x0 rest ∧ quadPartition nquad f x0 (.list rest) = .ok (I, D) ∧ 0 < D ∧
      |I - iterIntegral f ((x0.head hne, x0.getLast hne) :: rest)| = Real.sqrt ((x0.length - 1 : ℕ) : ℝ) * D := by
  have hzero : ∀ r : List (ℝ × ℝ), iterIntegral (fun _ => (0 : ℝ)) r = 0 := by
    intro r
    induction r with
    | nil => rfl
    | cons p r ih =>
      unfold iterIntegral
      simpa using ih
  set x0 : List ℝ := List.map (fun i : ℕ => (i : ℝ)) (List.range (n + 1)) with hx0
  have hlen : x0.length = n + 1 := by simp [hx0]
  have hne : x0 ≠ [] := by intro h; rw [h] at hlen; simp at hlen
  have hp : (pieces x0).length = n := by rw [pieces_length, hlen, Nat.add_sub_cancel]
  refine ⟨fun _ _ => (1, 1), fun _ => 0, x0, hne, n, Real.sqrt n, hlen, ?_, continuous_const, ?_, ?_, ?_, ?_⟩
  · rw [hx0]
    exact List.pairwise_map.2 (List.pairwise_lt_range.imp fun h => Nat.cast_lt.2 h)
  · intro p _
    rw [hzero]
    simp
  · simp only [quadPartition, LimArg.orEmpty, bind, Except.bind, quadLoop_eq]
    simp [hp]
  · exact Real.sqrt_pos.2 (by exact_mod_cast hn)
  · rw [hzero, hlen, Nat.add_sub_cancel, Real.mul_self_sqrt (Nat.cast_nonneg n), sub_zero, Nat.abs_cast]

/-! ## C17 -/

theorem Analytic.sigma_eq {r : Reso} {F p Q : ℝ → ℝ} (hA : Analytic r F p Q) {σ : ℝ → ℝ} (hσ : r.HasSigma σ) : σ = fun E => r.ics * p E := by
  funext E
  have := hσ E
  rw [hA.sigma E] at this
  simpa using this.symm

/-- C17, exact condition: the lower limit of a coverage interval is negative exactly if more than half of what the interval leaves out lies
at negative energies. -/
theorem C17_negative_iff {r : Reso} (h : IsBreitWigner r ∨ IsGauss r) (hI : 0 < r.ics) {σ : ℝ → ℝ} (hσ : r.HasSigma σ)
    {c : ℝ} (h0 : 0 ≤ c) (h1 : c < 1) :
    ∃ ci lo, r.coverageInterval c = .ok ci ∧ ci.lo = .fin lo ∧ (lo < 0 ↔ (1 - c) / 2 * r.ics < ∫ E in Iic 0, σ E) := by
  obtain ⟨F, p, Q, hA⟩ := analytic_of h
  obtain ⟨ci, hci, hlo, -⟩ := hA.coverage h0 h1 (cdf_default h)
  refine ⟨ci, _, hci, hlo, ?_⟩
  rw [← hA.good.strictMono.lt_iff_lt, hA.inv _ (by linarith) (by linarith), hA.sigma_eq hσ, integral_const_mul, hA.good.integral_Iic,
    show (1 - c) / 2 * r.ics = r.ics * (0.5 * (1 - c)) by ring]
  exact (mul_lt_mul_iff_right₀ hI).symm

/-- the resonance of the other examples -/
example : ∃ r σ, (IsBreitWigner r ∨ IsGauss r) ∧ 0 < r.ics ∧ r.HasSigma σ := by
  obtain ⟨r, h, er, hi⟩ := exMid_resonance
  have hb : IsBreitWigner { r with dist := cauchyDist, params := [r.er, 0.5 * 1e-5] } :=
    ⟨exConst, exGround, exMid, none, 1e-5, by simp only [mkBreitWigner, h, exMid_width, Bind.bind, Except.bind], exMid_width, by norm_num⟩
  obtain ⟨F, p, Q, hA⟩ := hb.analytic
  exact ⟨_, fun E => r.ics * p E, .inl hb, hi, fun E => hA.sigma E⟩

/-! ## C20 -/

/-- C20, the exact value for the Gauss shape. The upper limit does not depend on the resonance. -/
theorem C20_gauss_partial {r : Reso} {k : PhysConst} {init inter : Level} {amu T : ℝ} {final : Option Level}
    (hr : mkGauss k init inter amu T final = .ok r) (ha : 0 < amu) (hT : 0 < T) (hE : 0 < r.er) (hI : 0 ≤ r.ics) {σ : ℝ → ℝ}
    (hσ : r.HasSigma σ) :
    (∫ E in Ioi 0, σ E = r.ics * (1 / 2 + (∫ t in (0 : ℝ)..Real.sqrt (amu * k.u / (2 * k.kB * 1e-6 * T)), Real.exp (-t ^ 2)) / Real.sqrt Real.pi)) ∧
    r.ics - ∫ E in Ioi 0, σ E ≤ r.ics * (Real.exp (-(amu * k.u / (2 * k.kB * 1e-6 * T))) / 2) := by
  obtain ⟨r0, h0, ha0, rfl⟩ := mkGauss_inv hr
  simp only at hE hI hσ ⊢
  set d := dopplerWidth k amu T r0.er with hd
  have hd0 : 0 < d := dopplerWidth_pos k ha hT hE
  set r : Reso := { r0 with dist := normDist, params := [r0.er, d / Real.sqrt 2] } with hrdef
  have h2 : (0 : ℝ) < Real.sqrt 2 := by positivity
  have hs : 0 < d / Real.sqrt 2 := by positivity
  have hA : Analytic r _ _ _ := analytic_norm (l := r0.er) (s := d / Real.sqrt 2) rfl rfl hs
  set X := amu * k.u / (2 * k.kB * 1e-6 * T) with hX
  have hk := k.u_pos
  have hb := k.kB_pos
  have hX0 : 0 < X := by positivity
  have hratio : r0.er / d = Real.sqrt X := by
    rw [hd]
    unfold dopplerWidth
    have e : 2 * k.kB * 1e-6 * T / (amu * k.u) = X⁻¹ := by rw [hX, inv_div]
    rw [e, Real.sqrt_inv]
    have := Real.sqrt_pos.2 hX0
    field_simp
  have hsym : ∀ y, normPdf r0.er (d / Real.sqrt 2) (r0.er + y) = normPdf r0.er (d / Real.sqrt 2) (r0.er - y) := by
    intro y; unfold normPdf; congr 2; ring
  have hhalf := hA.good.half_of_symm r0.er hsym
  rw [hA.sigma_eq hσ, integral_const_mul, hA.good.integral_Ioi]
  constructor
  · -- the value
    have hder : ∀ y : ℝ, HasDerivAt (fun y => -normCdf r0.er (d / Real.sqrt 2) (r0.er - d * y)) (Real.exp (-y ^ 2) / Real.sqrt Real.pi) y := by
      intro y
      have h1 : HasDerivAt (fun y : ℝ => r0.er - d * y) (-d) y := by
        simpa using ((hasDerivAt_id y).const_mul d).const_sub r0.er
      have h3 := ((hA.good.deriv (r0.er - d * y)).comp y h1).neg
      refine h3.congr_deriv ?_
      unfold normPdf
      have e1 : -((r0.er - d * y - r0.er) / (d / Real.sqrt 2)) ^ 2 / 2 = -y ^ 2 := by
        have : (Real.sqrt 2) ^ 2 = 2 := Real.sq_sqrt (by norm_num)
        have e : (r0.er - d * y - r0.er) / (d / Real.sqrt 2) = -(y * Real.sqrt 2) := by field_simp; ring
        rw [e, neg_sq, mul_pow, this]; ring
      rw [e1, Real.sqrt_mul (by norm_num)]
      have hpi : 0 < Real.sqrt Real.pi := Real.sqrt_pos.2 Real.pi_pos
      field_simp
    have := intervalIntegral.integral_eq_sub_of_hasDerivAt (a := 0) (b := Real.sqrt X) (fun y _ => hder y)
      ((by fun_prop : Continuous fun y : ℝ => Real.exp (-y ^ 2) / Real.sqrt Real.pi).intervalIntegrable _ _)
    rw [intervalIntegral.integral_div] at this
    rw [this, ← hratio]
    have e : r0.er - d * (r0.er / d) = 0 := by field_simp; ring
    simp only [e, mul_zero, sub_zero, hhalf]
    ring
  · -- the bound
    have hle : normCdf r0.er (d / Real.sqrt 2) 0 ≤ Real.exp (-X) * normCdf 0 (d / Real.sqrt 2) 0 := by
      unfold normCdf
      rw [← integral_const_mul]
      refine setIntegral_mono_on (hA.good.integrable.integrableOn) ((norm_good 0 hs).integrable.integrableOn.const_mul _) measurableSet_Iic ?_
      intro x hx
      have hx' : x ≤ 0 := hx
      unfold normPdf
      rw [mul_div_assoc', ← Real.exp_add]
      refine div_le_div_of_nonneg_right (Real.exp_le_exp.2 ?_) (by positivity)
      have e : X = (r0.er / (d / Real.sqrt 2)) ^ 2 / 2 := by
        have h4 : (Real.sqrt 2) ^ 2 = 2 := Real.sq_sqrt (by norm_num)
        rw [show r0.er / (d / Real.sqrt 2) = r0.er / d * Real.sqrt 2 by field_simp, mul_pow, hratio, Real.sq_sqrt hX0.le, h4]
        ring
      rw [e, sub_zero]
      set s := d / Real.sqrt 2
      have hss : 0 < s ^ 2 := by positivity
      rw [← sub_nonneg]
      have : -((r0.er / s) ^ 2 / 2) + -(x / s) ^ 2 / 2 - -((x - r0.er) / s) ^ 2 / 2 = -(x * r0.er) / s ^ 2 := by ring
      rw [this]
      exact div_nonneg (by nlinarith) hss.le
    have h0' : normCdf 0 (d / Real.sqrt 2) 0 = 1 / 2 := (norm_good 0 hs).half_of_symm 0 (by intro y; unfold normPdf; congr 2; ring)
    rw [h0'] at hle
    have : r.ics = r0.ics := rfl
    nlinarith

example : ∃ r, mkGauss exConst exGround exMid 11 293 none = .ok r ∧ 0 < r.er ∧ 0 ≤ r.ics := by
  obtain ⟨r, h, er, hi⟩ := exMid_resonance
  refine ⟨{ r with dist := normDist, params := [r.er, dopplerWidth exConst 11 293 r.er / Real.sqrt 2] }, ?_, by simp [er], hi.le⟩
  simp only [mkGauss, h, getDopplerWidth_ok exConst (show (11 : ℝ) ≠ 0 by norm_num), Bind.bind, Except.bind]

/-! ## C60 -/

/-- C60, exact condition: the density of the element is returned exactly if no earlier line has a symbol that contains the requested symbol,
or if the first such line happens to have the same density. -/
theorem C60_correct_iff {X : Str} (hX : IsSymbol X) {f : DensFile} (hf : f.Valid) {pre post : List DensLine} {l : DensLine}
    (h : f.all = pre ++ l :: post) (hl : l.X = X) :
    readDensity id f.render X = .ok (some l.rho.value) ↔
      (∀ k ∈ pre, ¬ X <:+: k.X) ∨ ∃ p k q, pre = p ++ k :: q ∧ X <:+: k.X ∧ (∀ j ∈ p, ¬ X <:+: j.X) ∧ k.rho.value = l.rho.value := by
  rw [readDensity_eq hX hf]
  unfold densityAsRead
  rw [h]
  by_cases hp : ∀ k ∈ pre, ¬ X <:+: k.X
  · have hnone : pre.find? (fun k => contains X k.X) = none :=
      List.find?_eq_none.2 fun k hk hc => hp k hk ((contains_iff _ _).1 hc)
    have hlc : contains X l.X = true := (contains_iff _ _).2 (by rw [hl])
    rw [List.find?_append, hnone, Option.none_or, List.find?_cons_of_pos (by exact hlc)]
    exact ⟨fun _ => .inl hp, fun _ => rfl⟩
  · have hex : ∃ k ∈ pre, X <:+: k.X := by simpa using hp
    obtain ⟨k, hk⟩ : ∃ k, pre.find? (fun k => contains X k.X) = some k := by
      rcases hn : pre.find? (fun k => contains X k.X) with _ | k
      · obtain ⟨k, hk, hc⟩ := hex
        exact absurd ((contains_iff _ _).2 hc) (List.find?_eq_none.1 hn k hk)
      · exact ⟨k, hn⟩
    obtain ⟨hc, p, q, hpq, hb⟩ := List.find?_eq_some_iff_append.1 hk
    have hb' : ∀ j ∈ p, ¬ X <:+: j.X := fun j hj hc => by
      have := hb j hj
      rw [(contains_iff _ _).2 hc] at this
      simp at this
    rw [List.find?_append, hk, Option.some_or]
    constructor
    · intro he
      refine .inr ⟨p, k, q, hpq, (contains_iff _ _).1 hc, hb', by simpa using he⟩
    · rintro (h1 | ⟨p', k', q', hpq', hc', hb2, he⟩)
      · exact absurd h1 hp
      · have : pre.find? (fun k => contains X k.X) = some k' := by
          refine List.find?_eq_some_iff_append.2 ⟨(contains_iff _ _).2 hc', p', q', hpq', fun j hj => ?_⟩
          have := hb2 j hj
          rw [← contains_iff] at this
          simpa using this
        rw [hk] at this
        cases this
        simp [he]

/-! ## C15 -/

/-- resonances that accept the coverage, and sums of such, nested to any depth -/
inductive AllResonances (c : ℝ) : Obj → Prop
  | leaf (r : Reso) (h : AcceptsCoverage c r) : AllResonances c (.leaf r.toLeaf)
  | sum (rs ss : List Obj) (h : ∀ o ∈ rs, AllResonances c o) : AllResonances c (.wsum rs ss)

/-- the same with constants and nonresonant processes (whose grid is that of constants) among the constituents -/
inductive SumOfProcesses (c : ℝ) : Obj → Prop
  | leaf (r : Reso) (h : AcceptsCoverage c r) : SumOfProcesses c (.leaf r.toLeaf)
  | const (x : ℝ) : SumOfProcesses c (.const x)
  | nonresonant (l : Leaf) (h : l.grid = constGrid) : SumOfProcesses c (.leaf l)
  | sum (rs ss : List Obj) (h : ∀ o ∈ rs, SumOfProcesses c o) : SumOfProcesses c (.wsum rs ss)

/-- C15, exact condition: a coverage is accepted by a sum, nested to any depth, exactly if there is no constant and no nonresonant process
in it. -/
theorem C15_accepted_iff {c : ℝ} (h0 : 0 < c) (h1 : c < 1) {n : ℤ} (hn : 2 ≤ n) {o : Obj} (h : SumOfProcesses c o) :
    (∃ g, o.probGrid (.cov c) n = .ok g) ↔ AllResonances c o := by
  constructor
  · induction h with
    | leaf r h => exact fun _ => .leaf r h
    | const x => rintro ⟨g, hg⟩; simp [Obj.probGrid, constGrid] at hg
    | nonresonant l hl => rintro ⟨g, hg⟩; simp [Obj.probGrid, hl, constGrid] at hg
    | sum rs ss h ih =>
      intro hg
      exact .sum rs ss fun o ho => ih o ho ((C14_sum_grid rs ss (.cov c) n).1.1 hg o ho)
  · intro ha
    clear h
    induction ha with
    | leaf r h =>
      obtain ⟨m, rfl⟩ : ∃ m : ℕ, n = (m : ℤ) + 2 := ⟨(n - 2).toNat, by omega⟩
      obtain ⟨g, hg, -⟩ := h.grid h0 h1 m
      exact ⟨g.map .fin, by simp only [Obj.probGrid, Reso.toLeaf, Bind.bind, Except.bind, hg]⟩
    | sum rs ss h ih => exact (C14_sum_grid rs ss (.cov c) n).1.2 ih

example : ∃ o, SumOfProcesses 0.9 o ∧ AllResonances 0.9 o := by
  obtain ⟨r, h⟩ := exIsBreitWigner
  exact ⟨.wsum [.wsum [.leaf r.toLeaf] []] [], .sum _ _ fun o ho => by
    rw [List.mem_singleton.1 ho]
    exact .sum _ _ fun o ho => by rw [List.mem_singleton.1 ho]; exact .leaf r (.inl h),
    .sum _ _ fun o ho => by
    rw [List.mem_singleton.1 ho]
    exact .sum _ _ fun o ho => by rw [List.mem_singleton.1 ho]; exact .leaf r (.inl h)⟩

end Ries
