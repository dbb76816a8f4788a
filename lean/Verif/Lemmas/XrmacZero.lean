import Verif.Model.XrmacZero
import Verif.Lemmas.Xrmac

/-! # Interpolation with nodes at minus infinity -/

namespace Ries

theorem Fl.ninf_le (a : Fl) : Fl.ninf ≤ a := by
  cases a <;> simp [Fl.le_def, Fl.key]

theorem Fl.ninf_lt_fin (x : ℝ) : Fl.ninf < Fl.fin x := by
  simp only [Fl.lt_def, Fl.key, WithTop.coe_lt_coe]
  exact EReal.bot_lt_coe x

/-- between nodes at numbers, the formula in IEEE arithmetic is that of `lerp` -/
theorem lerpFl_fin {x0 x1 x : ℝ} {y0 y1 : Fl} (h0 : x0 < x) (h1 : x < x1) (hy0 : y0 ≠ .pinf) (hy1 : y1 ≠ .pinf) :
    lerpFl (.fin x0) y0 (.fin x1) y1 (.fin x) = lerp x0 y0 x1 y1 x := by
  have a1 : 0 < x1 - x0 := by linarith
  have a2 : 0 < x - x0 := by linarith
  have a3 : x - x1 < 0 := by linarith
  have a4 : 0 < x1 + -x0 := by linarith
  have a5 : 0 < x + -x0 := by linarith
  have a6 : x + -x1 < 0 := by linarith
  have a7 : 0 < (x1 + -x0)⁻¹ := inv_pos.2 a4
  have a8 : ¬ 0 < x + -x1 := by linarith
  cases y0 <;> cases y1 <;>
    simp_all [lerpFl, lerp, Fl.sub, Fl.neg, Fl.add, Fl.div, Fl.mul, Fl.smul, Fl.same, sub_eq_add_neg]
  rw [if_neg h1.not_gt]
  simp

/-- with the left node at minus infinity the value of the right node is returned -/
theorem lerpFl_ninf (a b x1 x : ℝ) : lerpFl .ninf (.fin a) (.fin x1) (.fin b) (.fin x) = .fin b := by
  simp [lerpFl, Fl.sub, Fl.neg, Fl.add, Fl.div, Fl.mul, Fl.smul]

/-- … but nan if the value at the left node is minus infinity -/
theorem lerpFl_ninf_ninf (b x1 x : ℝ) : lerpFl .ninf .ninf (.fin x1) (.fin b) (.fin x) = .nan := by
  simp [lerpFl, Fl.sub, Fl.neg, Fl.add, Fl.div, Fl.mul, Fl.smul, Fl.same]

theorem npInterpFl_fin (s : List (ℝ × Fl)) (hy : ∀ p ∈ s, p.2 ≠ .pinf) {x : ℝ} (hx : ∀ p, s.head? = some p → p.1 ≤ x) :
    npInterpFl (s.map fun p => (Fl.fin p.1, p.2)) (.fin x) = npInterp s x := by
  induction s with
  | nil => rfl
  | cons a s ih =>
    cases s with
    | nil => rfl
    | cons b s =>
      have ha := hx a rfl
      simp only [List.map_cons, npInterpFl, npInterp, Fl.fin_le_fin, Fl.fin.injEq]
      split_ifs with h1 h2
      · exact ih (fun p hp => hy p (List.mem_cons_of_mem _ hp)) (by simpa using h1)
      · rfl
      · exact lerpFl_fin (lt_of_le_of_ne ha (Ne.symm h2)) (not_le.1 h1) (hy a (by simp)) (hy b (by simp))

/-- nodes at minus infinity but the last one are skipped -/
theorem npInterpFl_skip (z : List (Fl × Fl)) (hz : ∀ p ∈ z, p.1 = .ninf) (y : Fl) (s : List (Fl × Fl)) (x : Fl) :
    npInterpFl (z ++ (.ninf, y) :: s) x = npInterpFl ((.ninf, y) :: s) x := by
  induction z with
  | nil => rfl
  | cons a z ih =>
    have hz' : ∀ p ∈ z, p.1 = .ninf := fun p hp => hz p (List.mem_cons_of_mem _ hp)
    rw [← ih hz']
    cases z with
    | nil => simp [npInterpFl, Fl.ninf_le]
    | cons b z =>
      have hb := hz' b (by simp)
      obtain ⟨b1, b2⟩ := b
      obtain rfl : b1 = .ninf := hb
      simp [npInterpFl, Fl.ninf_le]

theorem sortNodesFl_of_sorted {t : List (Fl × Fl)} (h : t.Pairwise fun a b => a.1 ≤ b.1) : sortNodesFl t = t :=
  List.mergeSort_of_pairwise (h.imp fun h => by simpa using h)

theorem sortNodesFl_map (t : List (ℝ × Fl)) :
    sortNodesFl (t.map fun p => (Fl.fin p.1, p.2)) = (sortNodes t).map fun p => (Fl.fin p.1, p.2) := by
  unfold sortNodesFl sortNodes
  rw [List.map_mergeSort]
  intro a _ b _
  simp

theorem flLog10_ne_pinf (x : ℝ) : flLog10 x ≠ .pinf := by
  unfold flLog10
  split_ifs <;> simp

theorem flLog10_ne_nan {x : ℝ} (hx : 0 ≤ x) : flLog10 x ≠ .nan := by
  unfold flLog10
  split_ifs with h1 h2 <;> simp
  exact h2 (le_antisymm (not_lt.1 h1) hx)

/-- for numbers as nodes the interpolation is that of `interp1dFl` -/
theorem interp1dZ_fin {t : List (ℝ × Fl)} (hne : t ≠ []) (hy : ∀ p ∈ t, p.2 ≠ .pinf) (below above : Fl) {x : Fl} (hx : x ≠ .pinf) :
    interp1dZ (t.map fun p => (Fl.fin p.1, p.2)) below above x = interp1dFl t below above x := by
  have hs : sortNodes t ≠ [] := by
    obtain ⟨p, hp⟩ := List.exists_mem_of_ne_nil t hne
    exact List.ne_nil_of_mem (mem_sortNodes.2 hp)
  obtain ⟨p, hp⟩ : ∃ p, (sortNodes t).head? = some p := ⟨_, List.head?_eq_some_head hs⟩
  obtain ⟨q, hq⟩ : ∃ q, (sortNodes t).getLast? = some q := ⟨_, List.getLast?_eq_getLast_of_ne_nil hs⟩
  simp only [interp1dZ, sortNodesFl_map, List.head?_map, List.getLast?_map, hp, hq, Option.map_some]
  cases x with
  | fin x =>
    simp only [interp1dFl, interp1d, hp, hq, Fl.fin_lt_fin, reduceCtorEq, if_false]
    split_ifs with h1 h2
    · rfl
    · rfl
    · refine npInterpFl_fin _ (fun r hr => hy r (mem_sortNodes.1 hr)) fun r hr => ?_
      rw [hp] at hr
      obtain rfl := Option.some.inj hr
      exact not_lt.1 h1
  | ninf => simp [interp1dFl, Fl.ninf_lt_fin]
  | pinf => exact absurd rfl hx
  | nan => simp [interp1dFl]

end Ries
