import Verif.Model.LimitTypes
import Verif.Props.GridVoigt
import Verif.Lemmas.State

/-! # Property C142: types of coverages and limits -/

namespace Ries

/-- The distribution function of a resonance of any shape works entry by entry. -/
theorem build_cdf {s : Shape} {k : PhysConst} {init inter : Level} {final : Option Level} {r : Reso}
    (h : s.build k init inter final = .ok r) : ∃ F : ℝ → Fl, ∀ xs, r.dist.cdf r.params xs = .ok (xs.map F) := by
  obtain ⟨r0, d, ps, -, h1, rfl⟩ := build_inv h
  cases s with
  | box R =>
    simp only [Shape.distOf, Except.ok.injEq, Prod.mk.injEq] at h1
    obtain ⟨rfl, rfl⟩ := h1
    exact ⟨_, fun xs => rfl⟩
  | breitWigner =>
    cases hw : inter.width with
    | error e => simp [Shape.distOf, hw, Bind.bind, Except.bind] at h1
    | ok w =>
      simp only [Shape.distOf, hw, Bind.bind, Except.bind, Except.ok.injEq, Prod.mk.injEq] at h1
      obtain ⟨rfl, rfl⟩ := h1
      exact ⟨_, fun xs => rfl⟩
  | gauss amu T =>
    cases hw : getDopplerWidth k amu T r0.er with
    | error e => simp [Shape.distOf, hw, Bind.bind, Except.bind] at h1
    | ok w =>
      simp only [Shape.distOf, hw, Bind.bind, Except.bind, Except.ok.injEq, Prod.mk.injEq] at h1
      obtain ⟨rfl, rfl⟩ := h1
      exact ⟨_, fun xs => rfl⟩
  | pseudoVoigt amu T =>
    cases hw : inter.width with
    | error e => simp [Shape.distOf, hw, Bind.bind, Except.bind] at h1
    | ok w =>
      cases hd : getDopplerWidth k amu T r0.er with
      | error e => simp [Shape.distOf, hw, hd, Bind.bind, Except.bind] at h1
      | ok w =>
        simp only [Shape.distOf, hw, hd, Bind.bind, Except.bind, Except.ok.injEq, Prod.mk.injEq] at h1
        obtain ⟨rfl, rfl⟩ := h1
        exact ⟨_, fun xs => rfl⟩
  | voigt amu T =>
    cases hw : inter.width with
    | error e => simp [Shape.distOf, hw, Bind.bind, Except.bind] at h1
    | ok w =>
      cases hd : getDopplerWidth k amu T r0.er with
      | error e => simp [Shape.distOf, hw, hd, Bind.bind, Except.bind] at h1
      | ok w =>
        simp only [Shape.distOf, hw, hd, Bind.bind, Except.bind, Except.ok.injEq, Prod.mk.injEq] at h1
        obtain ⟨rfl, rfl⟩ := h1
        exact ⟨_, fun xs => rfl⟩

/-- C142, what holds: for a resonance of any shape, Python numbers and values of type `np.float64` are coverages, the first two
entries of a longer sequence are the limits, whatever the types of the entries are, and a sequence of less than two entries is an
`IndexError`. The same holds for the energy grids of all cross sections, and constants take pairs. -/
theorem C142_partial {s : Shape} {k : PhysConst} {init inter : Level} {final : Option Level} {r : Reso}
    (h : s.build k init inter final = .ok r) (n : ℤ) :
    (∀ c, r.energyGridArg (.py c) n = r.energyGrid (.cov c) n ∧ r.energyGridArg (.float64 c) n = r.energyGrid (.cov c) n ∧
      r.probGridArg (.py c) n = r.probGrid (.cov c) n ∧ r.probGridArg (.float64 c) n = r.probGrid (.cov c) n) ∧
    (∀ a b rest, r.energyGridArg (.seq (a :: b :: rest)) n = r.energyGrid (.lims a.val b.val) n ∧
      r.probGridArg (.seq (a :: b :: rest)) n = r.probGrid (.lims a.val b.val) n ∧
      Ries.energyGridArg (.seq (a :: b :: rest)) n = energyGrid (.lims a.val b.val) n ∧
      constGridArg (.seq [a, b]) n = constGrid (.lims a.val b.val) n) ∧
    ∀ l, l.length < 2 → r.energyGridArg (.seq l) n = .error .indexError ∧ r.probGridArg (.seq l) n = .error .indexError ∧
      Ries.energyGridArg (.seq l) n = .error .indexError := by
  obtain ⟨F, hF⟩ := build_cdf h
  refine ⟨fun c => ⟨rfl, rfl, rfl, rfl⟩, fun a b rest => ⟨rfl, ?_, rfl, rfl⟩, fun l hl => ?_⟩
  · unfold Reso.probGridArg Reso.probGrid
    simp only [hF, List.map_cons, List.map_nil, bind, Except.bind]
    cases linspace (F a.val) (F b.val) n with
    | error e => rfl
    | ok qs =>
      simp only
      cases r.dist.ppf r.params qs with
      | error e => rfl
      | ok g => cases g <;> rfl
  · match l, hl with
    | [], _ =>
      refine ⟨rfl, ?_, rfl⟩
      unfold Reso.probGridArg
      simp only [hF, bind, Except.bind, List.map_nil]
    | [a], _ =>
      refine ⟨rfl, ?_, rfl⟩
      unfold Reso.probGridArg
      simp only [hF, bind, Except.bind, List.map_nil, List.map_cons]

/-- The hypothesis holds for a Breit-Wigner resonance, and the arguments differ. -/
example : (∃ r, Shape.build .breitWigner exConst exGround exMid none = .ok r) ∧ Entry.val (.int 3) = Entry.val (.float 3) ∧
    Entry.int 3 ≠ .float 3 := by
  obtain ⟨r, h, -, hI⟩ := exMid_resonance
  refine ⟨⟨_, by simp only [Shape.build, mkBreitWigner, h, exMid_width, Bind.bind, Except.bind]; rfl⟩, by simp [Entry.val], by simp⟩

/-- C142: no resonance of any shape has a grid for a coverage of another numpy type. -/
theorem C142_scalar {s : Shape} {k : PhysConst} {init inter : Level} {final : Option Level} {r : Reso}
    (h : s.build k init inter final = .ok r) (n : ℤ) (c : ℝ) :
    r.energyGridArg (.scalar c) n = .error .indexError ∧ r.probGridArg (.scalar c) n = .error .indexError := by
  obtain ⟨F, hF⟩ := build_cdf h
  refine ⟨rfl, ?_⟩
  unfold Reso.probGridArg
  simp only [hF, bind, Except.bind]

/-- C142 is false of the code: (1) a coverage that is accepted as a Python number is an `IndexError` as a single-precision number;
(2) a constant takes a single limit `a` and returns 50 points between `a` and the number of points; (3) a constant takes the
last one of three integers as the number of points, whatever number was asked for, while all energy grids ignore it. -/
theorem C142_refuted :
    (∃ (r : Reso) (c : ℝ), (∃ g, r.probGridArg (.py c) 5 = .ok (some g) ∧ g.length = 5) ∧
      r.probGridArg (.scalar c) 5 = .error .indexError ∧ r.energyGridArg (.scalar c) 5 = .error .indexError) ∧
    (∀ (a : Entry) (n : ℤ), Ries.energyGridArg (.seq [a]) n = .error .indexError ∧
      ∃ g : List ℝ, constGridArg (.seq [a]) n = .ok (g.map .fin) ∧ g.length = 50 ∧ g.head? = some a.val ∧ g.getLast? = some (n : ℝ)) ∧
    (∀ (a b : Entry) (m n : ℤ), 2 ≤ m → 2 ≤ n → n ≠ m → ∃ g g' : List ℝ, constGridArg (.seq [a, b, .int m]) n = .ok (g.map .fin) ∧
      (g.length : ℤ) = m ∧ Ries.energyGridArg (.seq [a, b, .int m]) n = .ok (g'.map .fin) ∧ (g'.length : ℤ) = n) := by
  refine ⟨?_, ?_, ?_⟩
  · obtain ⟨r, h, -, hI⟩ := exMid_resonance
    have hb : Shape.build .breitWigner exConst exGround exMid none = .ok { r with dist := cauchyDist, params := [r.er, 0.5 * 1e-5] } := by
      simp [Shape.build, mkBreitWigner, h, exMid_width, Bind.bind, Except.bind]
    have hB : IsBreitWigner { r with dist := cauchyDist, params := [r.er, 0.5 * 1e-5] } :=
      ⟨exConst, exGround, exMid, none, 1e-5, by simp [mkBreitWigner, h, exMid_width, Bind.bind, Except.bind], exMid_width, by norm_num⟩
    obtain ⟨g, hg, hl⟩ := AcceptsCoverage.grid (c := 0.5) (Or.inl hB) (by norm_num) (by norm_num) 3
    refine ⟨_, 0.5, ⟨g.map .fin, ?_, by simpa using hl⟩, (C142_scalar hb 5 0.5).2, (C142_scalar hb 5 0.5).1⟩
    exact hg
  · intro a n
    obtain ⟨g, hg, hlen, h1, h2, -⟩ := C10_energy_grid a.val n 50 (by norm_num)
    exact ⟨rfl, g, hg, by exact_mod_cast hlen, h1, h2⟩
  · intro a b m n hm hn hne
    obtain ⟨g, hg, hlen, -⟩ := C10_energy_grid a.val b.val m hm
    obtain ⟨g', hg', hlen', -⟩ := C10_energy_grid a.val b.val n hn
    refine ⟨g, g', ?_, hlen, hg', hlen'⟩
    change (if n = 0 then _ else _) = _
    rw [if_neg (by omega)]
    exact hg

/-- C142, what a constant does with three integers and no points: the grid has the number of points of the third entry but stops
one step before the second limit, so that the limit would be the next point of the equidistant grid. -/
theorem C142_no_endpoint (a b : Entry) (m : ℕ) : ∃ g : List ℝ, constGridArg (.seq [a, b, .int (m + 1)]) 0 = .ok (g.map .fin) ∧
    g.length = m + 1 ∧ linspace (.fin a.val) (.fin b.val) (m + 2 : ℕ) = .ok ((g ++ [b.val]).map .fin) := by
  refine ⟨(List.range (m + 1)).map fun i : ℕ => a.val + i * ((b.val - a.val) / ((m + 1 : ℤ) : ℝ)), ?_, by simp, ?_⟩
  · simp only [constGridArg, if_true]
    rw [if_neg (by omega), List.map_map]
    rfl
  · have h : ¬ ((m + 2 : ℕ) : ℤ) < 0 := by omega
    rw [linspace, if_neg h]
    simp only [Int.toNat_natCast, List.map_append, List.map_map, List.map_cons, List.map_nil, Except.ok.injEq]
    congr 1
    refine List.map_congr_left fun i _ => ?_
    simp only [Fl.smul, Fl.add, Function.comp, Fl.fin.injEq]
    push_cast
    have : (m : ℝ) + 1 ≠ 0 := by positivity
    have h2 : (m : ℝ) + 2 - 1 = m + 1 := by ring
    rw [h2]
    field_simp
    ring

end Ries
