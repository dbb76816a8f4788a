import Verif.Model.ComptonSpectrum
import Verif.Props.Compton
import Verif.Props.DarbouxConv
import Verif.Props.Grid

/-!
# C170: integrating Compton spectra with Darboux sums
-/

namespace Ries
open Real KN Set

/-! ## Lemmas -/

theorem Fl.add_nan (a : Fl) : a.add .nan = .nan := by cases a <;> rfl

theorem Fl.nan_add (a : Fl) : Fl.add .nan a = .nan := rfl

theorem Fl.npMin_fin (a b : ℝ) : Fl.npMin (.fin a) (.fin b) = .fin (min a b) := by
  unfold Fl.npMin
  rw [if_neg (by simp)]
  rcases le_total a b with h | h
  · rw [min_eq_left h, min_eq_left (Fl.fin_le_fin.2 h)]
  · rw [min_eq_right h, min_eq_right (Fl.fin_le_fin.2 h)]

theorem Fl.npMax_fin (a b : ℝ) : Fl.npMax (.fin a) (.fin b) = .fin (max a b) := by
  unfold Fl.npMax
  rw [if_neg (by simp)]
  rcases le_total a b with h | h
  · rw [max_eq_right h, max_eq_right (Fl.fin_le_fin.2 h)]
  · rw [max_eq_left h, max_eq_left (Fl.fin_le_fin.2 h)]

/-- products of neighbours and steps, structurally -/
noncomputable def termsFl (g : Fl → Fl → Fl) (f : ℝ → Fl) : ℝ → List ℝ → List Fl
  | _, [] => []
  | x, y :: l => (g (f x) (f y)).smul (y - x) :: termsFl g f y l

theorem termsFl_eq (g : Fl → Fl → Fl) (f : ℝ → Fl) (x : ℝ) (xs : List ℝ) :
    List.zipWith (fun m d => m.smul d) (List.zipWith g ((x :: xs).map f).dropLast (((x :: xs).map f).drop 1)) (diffs (x :: xs)) =
      termsFl g f x xs := by
  rw [diffs_cons]
  induction xs generalizing x with
  | nil => rfl
  | cons y l ih =>
    have := ih y
    simp only [List.map_cons, List.dropLast_cons_cons, List.drop_succ_cons, List.drop_zero, List.zipWith_cons_cons, diffsFrom,
      termsFl] at this ⊢
    rw [← this]

/-- One nan in the values makes the sum nan. -/
theorem termsFl_nan {g : Fl → Fl → Fl} (h1 : ∀ a, g .nan a = .nan) (h2 : ∀ a, g a .nan = .nan) {f : ℝ → Fl} {x : ℝ} {xs : List ℝ}
    (hne : xs ≠ []) (h : ∃ y ∈ x :: xs, f y = .nan) : Fl.npSum (termsFl g f x xs) = .nan := by
  induction xs generalizing x with
  | nil => exact absurd rfl hne
  | cons y l ih =>
    have e : Fl.npSum (termsFl g f x (y :: l)) = ((g (f x) (f y)).smul (y - x)).add (Fl.npSum (termsFl g f y l)) := rfl
    rw [e]
    by_cases hx : f x = .nan
    · rw [hx, h1]; rfl
    by_cases hy : f y = .nan
    · rw [hy, h2]; rfl
    obtain ⟨z, hz, hn⟩ := h
    have hz' : z ∈ l := by
      rcases List.mem_cons.1 hz with rfl | hz
      · exact absurd hn hx
      · rcases List.mem_cons.1 hz with rfl | hz
        · exact absurd hn hy
        · exact hz
    rw [ih (List.ne_nil_of_mem hz') ⟨z, List.mem_cons_of_mem _ hz', hn⟩, Fl.add_nan]

/-- With finite values the sum is that of `darboux`. -/
theorem termsFl_fin {g : Fl → Fl → Fl} {g' : ℝ → ℝ → ℝ} (hg : ∀ a b, g (.fin a) (.fin b) = .fin (g' a b)) {f : ℝ → Fl} {h : ℝ → ℝ}
    {x : ℝ} {xs : List ℝ} (hf : ∀ y ∈ x :: xs, f y = .fin (h y)) :
    Fl.npSum (termsFl g f x xs) = .fin (dsum g' x xs (h x) (xs.map h)) := by
  induction xs generalizing x with
  | nil => rfl
  | cons y l ih =>
    have e : Fl.npSum (termsFl g f x (y :: l)) = ((g (f x) (f y)).smul (y - x)).add (Fl.npSum (termsFl g f y l)) := rfl
    rw [e, ih (fun z hz => hf z (List.mem_cons_of_mem _ hz)), hf x (by simp), hf y (by simp), hg]
    simp only [Fl.smul, Fl.add, List.map_cons, dsum]
    rw [mul_comm]

theorem darbouxFl_nan {f : ℝ → Fl} {x : List ℝ} (h2 : 2 ≤ x.length) (h : ∃ y ∈ x, f y = .nan) : darbouxFl f x = .ok (.nan, .nan) := by
  match x, h2, h with
  | x :: y :: l, _, h =>
    have a1 : Fl.npSum (termsFl Fl.npMin f x (y :: l)) = .nan :=
      termsFl_nan (g := Fl.npMin) (fun a => by simp [Fl.npMin]) (fun a => by simp [Fl.npMin]) (by simp) h
    unfold darbouxFl
    rw [if_neg (by simp), termsFl_eq, termsFl_eq, a1]
    simp only [Fl.smul, Fl.add_nan, Fl.npAbs]

theorem darbouxFl_fin {f : ℝ → Fl} {h : ℝ → ℝ} {x : List ℝ} (hf : ∀ y ∈ x, f y = .fin (h y)) :
    darbouxFl f x = (darboux (vectorised h) x).map fun p => (.fin p.1, .fin p.2) := by
  cases x with
  | nil => rfl
  | cons x xs =>
    rw [darboux_fun]
    unfold darbouxFl
    rw [if_neg (by simp), termsFl_eq, termsFl_eq, termsFl_fin Fl.npMin_fin hf, termsFl_fin Fl.npMax_fin hf]
    simp only [Fl.smul, Fl.add, Fl.npAbs, Except.map]
    congr 4
    ring

theorem dEpElem_inside (k : PhysConst) (s : KN) {E Ep : ℝ} (hE : 0 < E) (h : Ep ∈ Icc (comptonEdge k E) E) (φ : ℝ) :
    dEpElem k s E Ep = .fin (s.dEp k E Ep) ∧ dEpdPhiElem k s E φ Ep = .fin (s.dEpdPhi k E Ep φ) := by
  have h0 : Ep ≠ 0 := ((edge_pos k hE).trans_le h.1).ne'
  have ht : thetaElem k E Ep = .fin (theta k E Ep) := by
    rw [thetaElem, if_neg (by simp [h0, hE.ne']), flArccos, if_pos ((arccos_arg_iff k hE h0).2 h)]; rfl
  simp only [dEpElem, dEpdPhiElem, ht, mapAngle]
  exact ⟨rfl, rfl⟩

theorem dEpElem_outside (k : PhysConst) (s : KN) {E Ep : ℝ} (hE : 0 < E) (h : Ep ∉ Icc (comptonEdge k E) E) (φ : ℝ) :
    dEpElem k s E Ep = .nan ∧ dEpdPhiElem k s E φ Ep = .nan := by
  have ht : thetaElem k E Ep = .nan := by
    by_cases h0 : Ep = 0
    · rw [thetaElem, if_pos (Or.inl h0)]
    · rw [thetaElem, if_neg (by simp [h0, hE.ne']), flArccos, if_neg (mt (arccos_arg_iff k hE h0).1 h)]
  simp only [dEpElem, dEpdPhiElem, ht, mapAngle, and_self]

/-- All points of a sorted partition lie between the first and the last one. -/
theorem chain_between {x : List ℝ} {a b y : ℝ} (hx : x.IsChain (· ≤ ·)) (h1 : x.head? = some a) (h2 : x.getLast? = some b) (hy : y ∈ x) :
    y ∈ Icc a b := by
  have hp := List.isChain_iff_pairwise.1 hx
  cases x with
  | nil => simp at h1
  | cons c l =>
    simp only [List.head?_cons, Option.some.injEq] at h1
    subst h1
    constructor
    · rcases List.mem_cons.1 hy with rfl | hy
      · exact le_rfl
      · exact (List.pairwise_cons.1 hp).1 y hy
    · obtain ⟨l', e⟩ := List.getLast?_eq_some_iff.1 h2
      rw [e] at hp hy
      rcases List.mem_append.1 hy with hy | hy
      · exact (List.pairwise_append.1 hp).2.2 y hy b (by simp)
      · rw [List.mem_singleton.1 hy]

theorem dEp_continuousOn (k : PhysConst) (s : KN) {E : ℝ} (hE : 0 < E) : ContinuousOn (s.dEp k E) (Icc (comptonEdge k E) E) := by
  have hm := k.me_pos
  have hpos := edge_pos k hE
  refine ContinuousOn.congr (f := fun Ep => π * s.scale k * (kern (E / k.me) (E / Ep) * (k.me / Ep ^ 2))) ?_
    fun Ep h => dEp_eq k s hE h.1 h.2
  have h0 : ∀ Ep ∈ Icc (comptonEdge k E) E, Ep ≠ 0 := fun Ep h => (hpos.trans_le h.1).ne'
  have h1 : ContinuousOn (fun Ep => E / Ep) (Icc (comptonEdge k E) E) := continuousOn_const.div continuousOn_id h0
  have h2 : ContinuousOn (fun Ep : ℝ => k.me / Ep ^ 2) (Icc (comptonEdge k E) E) :=
    continuousOn_const.div (continuousOn_id.pow 2) fun Ep h => pow_ne_zero 2 (h0 Ep h)
  refine continuousOn_const.mul (ContinuousOn.mul ?_ h2)
  unfold kern
  have h3 : ∀ Ep ∈ Icc (comptonEdge k E) E, E / Ep ≠ 0 := fun Ep h => div_ne_zero hE.ne' (h0 Ep h)
  fun_prop (disch := assumption)

/-! ## C170 -/

/-- C170 is false of the code: if a partition of scattered energies with two or more points contains an energy below the Compton edge or above the energy of the
photon, for example 0, then both the lower sum and the gap are nan. -/
theorem C170_refuted (k : PhysConst) (s : KN) {E : ℝ} (hE : 0 < E) {x : List ℝ} (h2 : 2 ≤ x.length) {Ep : ℝ} (hx : Ep ∈ x)
    (hout : Ep ∉ Icc (comptonEdge k E) E) (φ : ℝ) :
    darbouxFl (dEpElem k s E) x = .ok (.nan, .nan) ∧ darbouxFl (dEpdPhiElem k s E φ) x = .ok (.nan, .nan) :=
  ⟨darbouxFl_nan h2 ⟨Ep, hx, (dEpElem_outside k s hE hout φ).1⟩, darbouxFl_nan h2 ⟨Ep, hx, (dEpElem_outside k s hE hout φ).2⟩⟩

/-- `np.linspace(0, E, n)` is such a partition. -/
example (k : PhysConst) {E : ℝ} (hE : 0 < E) : (0 : ℝ) ∉ Icc (comptonEdge k E) E := fun h => absurd h.1 (edge_pos k hE).not_ge

/-- C170, the part that holds: on partitions of the possible energies, from the Compton edge to the energy of the photon, the sums are finite, lower sum and
lower sum plus gap both converge to the total cross section as the partition gets finer.  The same holds for partitions of the
angles from 0 to π. -/
theorem C170_partial (k : PhysConst) (Z : ℝ) {E : ℝ} (hE : 0 < E) {ε : ℝ} (hε : 0 < ε) :
    (∃ δ > 0, ∀ x : List ℝ, x.head? = some (comptonEdge k E) → x.getLast? = some E → x.IsChain (fun s t => s ≤ t ∧ t - s ≤ δ) →
      ∃ L D, darbouxFl (dEpElem k (electron k Z) E) x = .ok (.fin L, .fin D) ∧ 0 ≤ D ∧
        |L - (electron k Z).total k E| ≤ ε ∧ |L + D - (electron k Z).total k E| ≤ ε) ∧
    ∃ δ > 0, ∀ x : List ℝ, x.head? = some 0 → x.getLast? = some π → x.IsChain (fun s t => s ≤ t ∧ t - s ≤ δ) →
      ∃ L D, darboux (vectorised ((electron k Z).dTheta k E)) x = .ok (L, D) ∧ 0 ≤ D ∧
        |L - (electron k Z).total k E| ≤ ε ∧ |L + D - (electron k Z).total k E| ≤ ε := by
  constructor
  · obtain ⟨δ, hδ, h⟩ := C86_converges (edge_le k hE) (dEp_continuousOn k (electron k Z) hE) hε
    refine ⟨δ, hδ, fun x h1 h2 h3 => ?_⟩
    obtain ⟨L, D, e, h0, a, b⟩ := h x h1 h2 h3
    rw [(C43_energy_integral k Z E hE).1] at a b
    refine ⟨L, D, ?_, h0, a, b⟩
    rw [darbouxFl_fin (h := (electron k Z).dEp k E), e]
    · rfl
    · intro y hy
      refine (dEpElem_inside k _ hE ?_ 0).1
      exact chain_between (h3.imp fun _ _ h => h.1) h1 h2 hy
  · have hc : ContinuousOn ((electron k Z).dTheta k E) (Icc 0 π) := by
      have : Continuous fun θ => π * (electron k Z).scale k * ang (rat (E / k.me) θ) θ :=
        continuous_const.mul (ang_cont (div_nonneg hE.le k.me_pos.le))
      exact this.continuousOn.congr fun θ _ => dTheta_eq k _ hE.le θ
    obtain ⟨δ, hδ, h⟩ := C86_converges pi_pos.le hc hε
    refine ⟨δ, hδ, fun x h1 h2 h3 => ?_⟩
    have := h x h1 h2 h3
    rwa [(C42_angular_integral k Z E hE).2] at this

/-- Equidistant grids with sufficiently many points are as fine as needed. -/
theorem energyGrid_mesh {a b δ : ℝ} (hab : a ≤ b) (hδ : 0 < δ) : ∃ N : ℕ, ∀ n : ℕ, N ≤ n → ∃ g : List ℝ,
    energyGrid (.lims a b) n = .ok (g.map .fin) ∧ g.length = n ∧ g.head? = some a ∧ g.getLast? = some b ∧
      g.IsChain fun s t => s ≤ t ∧ t - s ≤ δ := by
  obtain ⟨N, hN⟩ := exists_nat_ge ((b - a) / δ)
  refine ⟨N + 2, fun n hn => ?_⟩
  obtain ⟨g, h1, h2, h3, h4, h5, h6⟩ := C10_energy_grid a b n (by omega)
  refine ⟨g, h1, by exact_mod_cast h2, h3, h4, ?_⟩
  rw [List.isChain_iff_getElem]
  intro i hi
  have e := h5 i hi
  have hn1 : (N : ℝ) + 1 ≤ (n : ℝ) - 1 := by
    have : ((N + 2 : ℕ) : ℝ) ≤ n := by exact_mod_cast hn
    push_cast at this
    linarith
  have hn0 : (0 : ℝ) < (n : ℝ) - 1 := by
    have : (0 : ℝ) ≤ N := Nat.cast_nonneg N
    linarith
  push_cast at e
  refine ⟨?_, ?_⟩
  · have : 0 ≤ (b - a) / ((n : ℝ) - 1) := div_nonneg (by linarith) hn0.le
    linarith
  · rw [e, div_le_iff₀ hn0]
    rw [div_le_iff₀ hδ] at hN
    nlinarith

/-- C86 for equidistant grids: the sums over `equidistant_energy_grid((a, b), n)` converge to the integral of every continuous function. -/
theorem C86_equidistant {f : ℝ → ℝ} {a b : ℝ} (hab : a ≤ b) (hf : ContinuousOn f (Icc a b)) {ε : ℝ} (hε : 0 < ε) :
    ∃ N : ℕ, ∀ n : ℕ, N ≤ n → ∃ (g : List ℝ) (L D : ℝ), energyGrid (.lims a b) n = .ok (g.map .fin) ∧
      darboux (vectorised f) g = .ok (L, D) ∧ 0 ≤ D ∧ |L - ∫ t in a..b, f t| ≤ ε ∧ |L + D - ∫ t in a..b, f t| ≤ ε := by
  obtain ⟨δ, hδ, h⟩ := C86_converges hab hf hε
  obtain ⟨N, hN⟩ := energyGrid_mesh hab hδ
  refine ⟨N, fun n hn => ?_⟩
  obtain ⟨g, h1, -, h3, h4, h5⟩ := hN n hn
  obtain ⟨L, D, h⟩ := h g h3 h4 h5
  exact ⟨g, L, D, h1, h⟩

/-- C170 for the grids that a user can get from `equidistant_energy_grid`: from the Compton edge to the energy of the photon the sums converge to the
total cross section; from 0 they are nan for every number of points. -/
theorem C170_equidistant (k : PhysConst) (Z : ℝ) {E : ℝ} (hE : 0 < E) :
    (∀ ε > 0, ∃ N : ℕ, ∀ n : ℕ, N ≤ n → ∃ (g : List ℝ) (L D : ℝ), energyGrid (.lims (comptonEdge k E) E) n = .ok (g.map .fin) ∧
      darbouxFl (dEpElem k (electron k Z) E) g = .ok (.fin L, .fin D) ∧
      |L - (electron k Z).total k E| ≤ ε ∧ |L + D - (electron k Z).total k E| ≤ ε) ∧
    ∀ n : ℕ, 2 ≤ n → ∃ g : List ℝ, energyGrid (.lims 0 E) n = .ok (g.map .fin) ∧ darbouxFl (dEpElem k (electron k Z) E) g = .ok (.nan, .nan) := by
  constructor
  · intro ε hε
    obtain ⟨δ, hδ, h⟩ := (C170_partial k Z hE hε).1
    obtain ⟨N, hN⟩ := energyGrid_mesh (edge_le k hE) hδ
    refine ⟨N, fun n hn => ?_⟩
    obtain ⟨g, h1, -, h3, h4, h5⟩ := hN n hn
    obtain ⟨L, D, h, -, h'⟩ := h g h3 h4 h5
    exact ⟨g, L, D, h1, h, h'⟩
  · intro n hn
    obtain ⟨g, h1, h2, h3, -⟩ := C10_energy_grid 0 E n (by omega)
    refine ⟨g, h1, (C170_refuted k _ hE (by omega) (List.mem_of_mem_head? h3) ?_ 0).1⟩
    exact fun h => absurd h.1 (edge_pos k hE).not_ge

/-- Partitions as in `C170_partial` exist for every mesh, here for a photon of 1 MeV. -/
example (δ : ℝ) (hδ : 0 < δ) : ∃ x : List ℝ, x.head? = some (comptonEdge exConst 1) ∧ x.getLast? = some 1 ∧
    x.IsChain fun s t => s ≤ t ∧ t - s ≤ δ := by
  obtain ⟨N, h⟩ := energyGrid_mesh (edge_le exConst one_pos) hδ
  obtain ⟨g, -, -, h3, h4, h5⟩ := h N le_rfl
  exact ⟨g, h3, h4, h5⟩

end Ries
