import Verif.Lemmas.XrmacCont
import Verif.Props.Xrmac

/-! # Property C98: continuity of the interpolated cross section and jumps at absorption edges -/

open Filter Topology Set

namespace Ries

/-- An absorption edge: an energy that is listed (at least) twice. -/
def AbsorptionEdge (t : Table) (E : ℝ) : Prop :=
  ∃ pre c mid d post, t = pre ++ c :: mid ++ d :: post ∧ c.1 = E ∧ d.1 = E

/-- C98: for a table sorted by energy, the interpolated cross section is a function of energy that is continuous at every
energy but the absorption edges and continuous from the right everywhere, so that it is continuous when no energy is listed
twice. From below, it tends at every tabulated energy to the first value that is listed for this energy; at the energy
itself it is the last value. -/
theorem C98_continuity {t : Table} (ht : PosTable t) (hs : SortedTable t) :
    ∃ f : ℝ → ℝ, (∀ E, 0 ≤ E → HasValue t E (f E)) ∧ (∀ E, 0 ≤ E → ContinuousWithinAt f (Ici E) E) ∧
      (∀ E, 0 < E → ¬ AbsorptionEdge t E → ContinuousAt f E) ∧
      ((t.Pairwise fun a b => a.1 < b.1) → ContinuousOn f (Ici 0)) ∧
      (∀ pre E y post, t = pre ++ (E, y) :: post → (∀ r ∈ pre, r.1 < E) → Tendsto f (𝓝[<] E) (𝓝 y)) ∧
      ∀ pre E y post, t = pre ++ (E, y) :: post → (∀ r ∈ post, E < r.1) → f E = y := by
  obtain ⟨a, ha⟩ : ∃ a, t.head? = some a := by
    cases h' : t with
    | nil => exact absurd h' ht.1
    | cons p s => exact ⟨p, rfl⟩
  have ham := List.mem_of_mem_head? ha
  have ha1 := (ht.2 a ham).1
  set g : ℝ → ℝ := fun E => (10 : ℝ) ^ interpR (nodesR t) (Real.logb 10 E) with hg
  set f : ℝ → ℝ := fun E => if 0 < E then g E else a.2 with hf
  have hsn := nodesR_sorted ht hs
  have hfg : ∀ E, 0 < E → f =ᶠ[𝓝 E] g := by
    intro E hE
    filter_upwards [Ioi_mem_nhds hE] with z hz
    simp only [hf]; rw [if_pos (show 0 < z from hz)]
  have hlow : ∀ E, E < a.1 → f E = a.2 := by
    intro E hE
    by_cases h : 0 < E
    · simp only [hf]
      rw [if_pos h]
      obtain ⟨s, rfl⟩ : ∃ s, t = a :: s := by
        cases t with
        | nil => simp at ha
        | cons c s => simp at ha; exact ⟨s, by rw [ha]⟩
      have : interpR (nodesR (a :: s)) (Real.logb 10 E) = Real.logb 10 a.2 :=
        interpR_left (a := (Real.logb 10 a.1, Real.logb 10 a.2)) hsn (Or.inl (logb_lt h hE))
      simp only [hg, this]
      exact pow_logb (ht.2 a ham).2
    · simp only [hf]; rw [if_neg h]
  have hlog : ∀ E, 0 < E → ContinuousAt (Real.logb 10) E := fun E hE => Real.continuousAt_logb hE.ne'
  have hpow : Continuous fun y : ℝ => (10 : ℝ) ^ y := Real.continuous_const_rpow (by norm_num)
  have hmono : ∀ E, 0 < E → MapsTo (Real.logb 10) (Ici E) (Ici (Real.logb 10 E)) := fun E hE z hz => logb_le hE hz
  have hzero : ContinuousAt f 0 := by
    refine (continuousAt_const (y := a.2)).congr ?_
    filter_upwards [Iio_mem_nhds ha1] with z hz
    exact (hlow z hz).symm
  have hval : ∀ E, 0 ≤ E → HasValue t E (f E) := by
    intro E hE
    rcases hE.eq_or_lt with rfl | hE
    · rw [hlow 0 ha1]; exact call_zero ht ha
    · simp only [hf]; rw [if_pos hE]; exact call_interpR ht hs hE
  have hcont : ∀ E, 0 < E → ¬ AbsorptionEdge t E → ContinuousAt f E := by
    intro E hE hedge
    refine ContinuousAt.congr ?_ (hfg E hE).symm
    refine hpow.continuousAt.comp (ContinuousAt.comp ?_ (hlog E hE))
    refine interpR_continuousAt _ hsn _ fun pre c mid d post => ?_
    by_contra hcon
    push Not at hcon
    obtain ⟨h1, h2, h3⟩ := hcon
    apply hedge
    obtain ⟨l1, l2, e, e1, e2⟩ := List.map_eq_append_iff.1 h1
    obtain ⟨pre', l3, e', e3, e4⟩ := List.map_eq_append_iff.1 e1
    obtain ⟨c', mid', rfl, rfl, rfl⟩ := List.map_eq_cons_iff.1 e4
    obtain ⟨d', post', rfl, rfl, rfl⟩ := List.map_eq_cons_iff.1 e2
    have hcm : c' ∈ t := by rw [e, e']; simp
    have hdm : d' ∈ t := by rw [e]; simp
    exact ⟨pre', c', mid', d', post', by rw [e, e'], logb_inj (ht.2 c' hcm).1 hE h2, logb_inj (ht.2 d' hdm).1 hE h3⟩
  refine ⟨f, hval, ?_, hcont, ?_, ?_, ?_⟩
  · intro E hE
    rcases hE.eq_or_lt with rfl | hE
    · exact hzero.continuousWithinAt
    · refine ContinuousWithinAt.congr_of_eventuallyEq ?_ (nhdsWithin_le_nhds (hfg E hE)) (hfg E hE).self_of_nhds
      exact hpow.continuousAt.comp_continuousWithinAt
        ((interpR_right _ hsn _).comp (hlog E hE).continuousWithinAt (hmono E hE))
  · intro hst E hE
    rcases (show (0 : ℝ) ≤ E from hE).eq_or_lt with rfl | hE
    · exact hzero.continuousWithinAt
    · refine (hcont E hE ?_).continuousWithinAt
      rintro ⟨pre, c, mid, d, post, rfl, rfl, e⟩
      have := (List.pairwise_append.1 hst).2.2 c (by simp) d (by simp)
      exact absurd e this.ne'
  · rintro pre E y post rfl hlt
    have hE : 0 < E := (ht.2 (E, y) (by simp)).1
    have hy : 0 < y := (ht.2 (E, y) (by simp)).2
    have hmap : nodesR (pre ++ (E, y) :: post) = nodesR pre ++ (Real.logb 10 E, Real.logb 10 y) :: nodesR post := by
      simp [nodesR]
    have h1 : Tendsto (interpR (nodesR (pre ++ (E, y) :: post))) (𝓝[<] Real.logb 10 E) (𝓝 (Real.logb 10 y)) := by
      rw [hmap] at hsn ⊢
      refine interpR_edge _ (Real.logb 10 E, Real.logb 10 y) _ hsn ?_
      intro p hp
      obtain ⟨q, hq, rfl⟩ := List.mem_map.1 hp
      exact logb_lt (ht.2 q (by simp [hq])).1 (hlt q hq)
    have h2 : Tendsto (Real.logb 10) (𝓝[<] E) (𝓝[<] Real.logb 10 E) := by
      refine tendsto_nhdsWithin_iff.2 ⟨(hlog E hE).mono_left nhdsWithin_le_nhds, ?_⟩
      filter_upwards [self_mem_nhdsWithin, nhdsWithin_le_nhds (Ioi_mem_nhds hE)] with z hz hz0
      exact logb_lt hz0 hz
    have h3 := (hpow.tendsto (Real.logb 10 y)).comp (h1.comp h2)
    rw [pow_logb hy] at h3
    exact h3.congr' (nhdsWithin_le_nhds ((hfg E hE).mono fun z hz => hz.symm))
  · intro pre E y post e hlt
    have hE : 0 < E := (ht.2 (E, y) (by rw [e]; simp)).1
    have h1 := C48_nodes ht pre post e fun r hr => (hlt r hr).ne'
    have h2 := hval E hE.le
    rw [HasValue, h1] at h2
    simpa using h2.symm

/-- The example table has an absorption edge at 2, with the value 4 below and 9 at the edge. -/
example : AbsorptionEdge exTable 2 ∧ ∃ f : ℝ → ℝ, (∀ E, 0 ≤ E → HasValue exTable E (f E)) ∧
    ¬ ContinuousAt f 2 ∧ ContinuousAt f 1 := by
  refine ⟨⟨[(1, 8)], (2, 4), [], (2, 9), [(3, 1)], rfl, rfl, rfl⟩, ?_⟩
  obtain ⟨f, h1, -, h3, -, h5, h6⟩ := C98_continuity exTable_pos exTable_sorted
  refine ⟨f, h1, fun hc => ?_, h3 1 one_pos ?_⟩
  · have h4 := h5 [(1, 8)] 2 4 [(2, 9), (3, 1)] rfl (by simp)
    have h9 := h6 [(1, 8), (2, 4)] 2 9 [(3, 1)] rfl (by norm_num)
    have := tendsto_nhds_unique h4 (hc.mono_left nhdsWithin_le_nhds)
    rw [h9] at this
    norm_num at this
  · rintro ⟨pre, c, mid, d, post, e, e1, e2⟩
    have hn : (exTable.map Prod.fst).filter (· = 1) = [1] := by simp [exTable]
    rw [e] at hn
    have := congrArg List.length hn
    simp [e1, e2] at this
    omega

end Ries
