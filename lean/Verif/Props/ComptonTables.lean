import Verif.Lemmas.ShippedCompton
import Verif.Props.ComptonGrowth
import Verif.Props.XrmacEdges
import Verif.Model.Constants
import Mathlib.Analysis.Real.Pi.Bounds

/-!
# C176: the attenuation tables in comparison with Compton scattering

The tables contain the total attenuation by all processes.  At energies where the binding of the electrons plays no role, one of the
processes is Compton scattering on each of the `Z` electrons.  The two modules get their numbers from different sources: text files of
NIST (in MeV and cm²/g), the masses of the elements, and constants of CODATA.
-/

namespace Ries

open Text

/-- the values of the physical constants to about six digits, as in all editions of CODATA since 2010 -/
structure NearCodata (k : PhysConst) (mu : ℝ) : Prop where
  me : 0.5109989 ≤ k.me ∧ k.me ≤ 0.511
  alpha : 0.00729735 ≤ k.alpha ∧ k.alpha ≤ 0.00729736
  hbarc : 197.3269 ≤ k.hbarc ∧ k.hbarc ≤ 197.327
  mu : 1.660538e-27 ≤ mu ∧ mu ≤ 1.66054e-27

/-- where an energy is in a sorted table -/
theorem position {t : Table} (hs : SortedTable t) (hne : t ≠ []) (E : ℝ) :
    (∃ a, t.head? = some a ∧ ∀ r ∈ t, E < r.1) ∨ (∃ b, t.getLast? = some b ∧ ∀ r ∈ t, r.1 < E) ∨ (∃ r ∈ t, r.1 = E) ∨
      ∃ pre a b post, t = pre ++ a :: b :: post ∧ a.1 < E ∧ E < b.1 := by
  induction t with
  | nil => exact absurd rfl hne
  | cons a t ih =>
    obtain ⟨h1, h2⟩ := List.pairwise_cons.1 hs
    rcases lt_trichotomy E a.1 with h | h | h
    · refine .inl ⟨a, rfl, fun r hr => ?_⟩
      rcases List.mem_cons.1 hr with rfl | hr
      · exact h
      · exact h.trans_le (h1 r hr)
    · exact .inr (.inr (.inl ⟨a, by simp, h.symm⟩))
    · cases t with
      | nil => exact .inr (.inl ⟨a, rfl, by simpa using h⟩)
      | cons b t =>
        rcases ih h2 (by simp) with ⟨c, hc, h3⟩ | ⟨c, hc, h3⟩ | ⟨r, hr, h3⟩ | ⟨pre, c, d, post, h3, h4⟩
        · exact .inr (.inr (.inr ⟨[], a, b, t, rfl, h, h3 b (by simp)⟩))
        · refine .inr (.inl ⟨c, by simpa using hc, fun r hr => ?_⟩)
          rcases List.mem_cons.1 hr with rfl | hr
          · exact h
          · exact h3 r hr
        · exact .inr (.inr (.inl ⟨r, List.mem_cons_of_mem _ hr, h3⟩))
        · exact .inr (.inr (.inr ⟨a :: pre, c, d, post, by rw [h3]; rfl, h4⟩))

/-- the Klein-Nishina cross section in terms of the reduced one -/
theorem compton_bounds {k : PhysConst} {mu : ℝ} (hk : NearCodata k mu) {Z E : ℝ} (hZ : 0 ≤ Z) (hE : 0 < E) :
    (KN.electron k Z).total k E ≤ Z * 24.947 * KN.angInt (E / k.me) ∧
      Z * 24.9465 * KN.angInt (E / k.me) ≤ (KN.electron k Z).total k E := by
  obtain ⟨⟨m1, m2⟩, ⟨a1, a2⟩, ⟨c1, c2⟩, -⟩ := hk
  have hm : 0 < k.me := k.me_pos
  have p1 := Real.pi_gt_d6
  have p2 := Real.pi_lt_d6
  have ha : 0 < KN.angInt (E / k.me) := KN.angInt_pos (div_nonneg hE.le hm.le)
  rw [KN.total_eq k _ hE hm]
  have e : Real.pi * (KN.electron k Z).scale k * KN.angInt (E / (KN.electron k Z).mc2) =
      Z * (Real.pi * (k.alpha * k.hbarc / k.me) ^ 2) * KN.angInt (E / k.me) := by
    simp only [KN.scale, KN.electron]
    field_simp
  rw [e]
  have r1 : k.alpha * k.hbarc / k.me ≤ 2.817955 := by
    rw [div_le_iff₀ hm]
    have : k.alpha * k.hbarc ≤ 0.00729736 * 197.327 := mul_le_mul a2 c2 k.hbarc_pos.le (by norm_num)
    nlinarith
  have r2 : 2.81793 ≤ k.alpha * k.hbarc / k.me := by
    rw [le_div_iff₀ hm]
    have : 0.00729735 * 197.3269 ≤ k.alpha * k.hbarc := mul_le_mul a1 c1 (by norm_num) k.alpha_pos.le
    nlinarith
  have q1 : Real.pi * (k.alpha * k.hbarc / k.me) ^ 2 ≤ 24.947 := by
    have : (k.alpha * k.hbarc / k.me) ^ 2 ≤ 2.817955 ^ 2 := pow_le_pow_left₀ (by linarith) r1 2
    calc _ ≤ 3.141593 * (2.817955 : ℝ) ^ 2 := mul_le_mul p2.le this (sq_nonneg _) (by norm_num)
      _ ≤ _ := by norm_num
  have q2 : 24.9465 ≤ Real.pi * (k.alpha * k.hbarc / k.me) ^ 2 := by
    have : (2.81793 : ℝ) ^ 2 ≤ (k.alpha * k.hbarc / k.me) ^ 2 := pow_le_pow_left₀ (by norm_num) r2 2
    calc (24.9465 : ℝ) ≤ 3.141592 * (2.81793 : ℝ) ^ 2 := by norm_num
      _ ≤ _ := mul_le_mul p1.le this (by norm_num) Real.pi_pos.le
  constructor <;> gcongr

/-- a bound on the Klein-Nishina cross section that follows from a bound at a lower energy -/
theorem compton_le {k : PhysConst} {mu : ℝ} (hk : NearCodata k mu) {Z : ℕ} {E : ℝ} {q m y c : ℚ} {v : ℝ} (hE : 0 < E)
    (hq : (q : ℝ) ≤ E) (hc : 0 ≤ c) (hm : 0 ≤ m) (hy : 0 ≤ y) (hv : (y : ℝ) ≤ v)
    (h : c * (Z * (24947 / 1000) * KN.stdUp q) ≤ 1660538 / 10000 * m * y) :
    c * (KN.electron k Z).total k E ≤ 1e29 * m * mu * v := by
  have h1 := (compton_bounds hk (Z := Z) (Nat.cast_nonneg Z) hE).1
  have h2 := KN.stdUp_spec hE.le hq hk.me.1 hk.me.2
  have hc' : (0 : ℝ) ≤ c := by exact_mod_cast hc
  have hm' : (0 : ℝ) ≤ m := by exact_mod_cast hm
  have hy' : (0 : ℝ) ≤ y := by exact_mod_cast hy
  have h' : (c : ℝ) * (Z * (24947 / 1000) * (KN.stdUp q : ℝ)) ≤ 1660538 / 10000 * m * y := by
    have := (Rat.cast_le (K := ℝ)).2 h
    push_cast at this
    exact this
  calc (c : ℝ) * (KN.electron k Z).total k E ≤ c * (Z * 24.947 * (KN.stdUp q : ℝ)) := by
        refine mul_le_mul_of_nonneg_left (h1.trans ?_) hc'
        gcongr
    _ = c * (Z * (24947 / 1000) * (KN.stdUp q : ℝ)) := by norm_num
    _ ≤ 1660538 / 10000 * m * y := h'
    _ = (1e29 * 1.660538e-27) * (m * y) := by ring
    _ ≤ (1e29 * mu) * (m * v) := by
        have := hk.mu.1
        gcongr
    _ = _ := by ring

/-- Between two energies, the power law through the values there is not much smaller than a function that decreases, but more slowly
than `1/E`. -/
theorem power_law_below {E0 E E1 y0 y1 g g0 g1 A c : ℝ} (p0 : 0 < E0) (h0 : E0 < E) (h1 : E < E1) (h2 : E1 ≤ 3 / 2 * E0)
    (hy0 : 0 < y0) (hy1 : 0 < y1) (hg : 0 < g) (hA : 0 < A) (hc : 0 < c) (hg0 : g ≤ g0) (hg1 : E * g ≤ E1 * g1)
    (k0 : c * g0 ≤ A * y0) (k1 : c * g1 ≤ A * y1) :
    c * g ≤ 1.1111 * (A * (y0 * (E / E0) ^ (Real.log (y1 / y0) / Real.log (E1 / E0)))) := by
  have pE : 0 < E := p0.trans h0
  have p1 : 0 < E1 := pE.trans h1
  have l0 := Real.log_lt_log p0 h0
  have l1 := Real.log_lt_log pE h1
  set s := (Real.log E - Real.log E0) / (Real.log E1 - Real.log E0) with hs
  have hL : 0 < Real.log E1 - Real.log E0 := by linarith
  have s0 : 0 ≤ s := div_nonneg (by linarith) hL.le
  have s1 : s ≤ 1 := (div_le_one hL).2 (by linarith)
  have hsL : s * (Real.log E1 - Real.log E0) = Real.log E - Real.log E0 := div_mul_cancel₀ _ hL.ne'
  clear_value s
  have a0 : Real.log c + Real.log g ≤ Real.log A + Real.log y0 := by
    rw [← Real.log_mul hc.ne' hg.ne', ← Real.log_mul hA.ne' hy0.ne']
    exact Real.log_le_log (by positivity) (le_trans (by gcongr) k0)
  have a1 : Real.log c + Real.log g + (Real.log E - Real.log E1) ≤ Real.log A + Real.log y1 := by
    rw [← Real.log_mul hc.ne' hg.ne', ← Real.log_div pE.ne' p1.ne', ← Real.log_mul (by positivity) (by positivity),
      ← Real.log_mul hA.ne' hy1.ne']
    refine Real.log_le_log (by positivity) (le_trans ?_ k1)
    rw [mul_div_assoc', div_le_iff₀ p1]
    nlinarith
  have a2 : Real.log E1 - Real.log E0 ≤ 4 * Real.log 1.1111 := by
    rw [← Real.log_div p1.ne' p0.ne']
    have : 4 * Real.log 1.1111 = Real.log (1.1111 ^ 4) := by rw [Real.log_pow]; norm_num
    rw [this]
    refine Real.log_le_log (by positivity) (((div_le_iff₀ p0).2 h2).trans ?_)
    norm_num
  have hpow : 0 < (E / E0) ^ (Real.log (y1 / y0) / Real.log (E1 / E0)) := Real.rpow_pos_of_pos (by positivity) _
  rw [← Real.log_le_log_iff (by positivity) (by positivity), Real.log_mul hc.ne' hg.ne',
    Real.log_mul (by norm_num) (by positivity), Real.log_mul hA.ne' (by positivity), Real.log_mul hy0.ne' hpow.ne',
    Real.log_rpow (by positivity), Real.log_div hy1.ne' hy0.ne', Real.log_div p1.ne' p0.ne', Real.log_div pE.ne' p0.ne']
  have e : (Real.log y1 - Real.log y0) / (Real.log E1 - Real.log E0) * (Real.log E - Real.log E0) =
      s * (Real.log y1 - Real.log y0) := by
    rw [hs]; ring
  rw [e]
  have b0 := mul_le_mul_of_nonneg_left a0 (sub_nonneg.2 s1)
  have b1 := mul_le_mul_of_nonneg_left a1 s0
  have b2 : s * (Real.log E1 - Real.log E) = s * (1 - s) * (Real.log E1 - Real.log E0) := by
    linear_combination s * hsL
  have b3 : s * (1 - s) * (Real.log E1 - Real.log E0) ≤ 1 / 4 * (4 * Real.log 1.1111) := by
    refine mul_le_mul (by nlinarith [sq_nonneg (2 * s - 1)]) a2 hL.le (by norm_num)
  nlinarith

/-- the facts about a table that are used for C176 -/
theorem compton_table {k : PhysConst} {mu : ℝ} (hk : NearCodata k mu) {Z : ℕ} (hZ : Z ∈ List.range' 1 92)
    {m : ℚ} (hm : (shippedElement Z).amu = m) (hm0 : 0 < m) :
    (∀ E v, 0 < E → HasValue (tableOf Z) E v → 0.8999 * (KN.electron k Z).total k E ≤ 1e29 * m * mu * v) ∧
    ∀ E v, 0 < E → ((∃ r ∈ tableOf Z, r.1 = E) ∨ (∀ r ∈ tableOf Z, E < r.1) ∨ ∀ r ∈ tableOf Z, r.1 < E) →
      HasValue (tableOf Z) E v →
      0.9999 * (KN.electron k Z).total k E ≤ 1e29 * m * mu * v := by
  have h := shipped_compton hZ
  have hp := tableOf_pos hZ
  have hs := tableOf_sorted hZ
  have hg := shipped_good hZ
  simp only [checkCompton, hm] at h
  unfold tableOf at hp hs ⊢
  generalize xrmacLines Z = ls at h hp hs hg ⊢
  rw [Bool.or_eq_true] at h
  have h := h.resolve_left (by simpa using hm0)
  simp only [Bool.and_eq_true, List.all_eq_true, decide_eq_true_eq] at h
  obtain ⟨⟨h1, h2⟩, h3⟩ := h
  have hnode : ∀ E v, (∃ r ∈ ls.map fun l => ((l.energy.value : ℝ), (l.mu.value : ℝ)), r.1 = E) →
      HasValue (ls.map fun l => ((l.energy.value : ℝ), (l.mu.value : ℝ))) E v →
      0.9999 * (KN.electron k Z).total k E ≤ 1e29 * m * mu * v := by
    intro E v hE hv
    obtain ⟨pre, c, post, e1, e2, e3⟩ := last_row hs hE
    have hc : c ∈ ls.map fun l => ((l.energy.value : ℝ), (l.mu.value : ℝ)) := by rw [e1]; simp
    have hv' := C48_nodes hp pre post (E := c.1) (y := c.2) e1 (fun r hr => (e2 ▸ e3 r hr).ne')
    obtain ⟨l, hl, rfl⟩ := List.mem_map.1 hc
    simp only at e2 hv'
    rw [e2] at hv'
    obtain rfl : (l.mu.value : ℝ) = v := Fl.fin.inj (Except.ok.inj (hv'.symm.trans hv))
    have := compton_le hk (m := m) (y := l.mu.value) (c := 9999 / 10000) (v := l.mu.value) (Z := Z) (E := E)
      (by rw [← e2]; exact_mod_cast (hg.pos l hl).1) e2.le (by norm_num) hm0.le (hg.pos l hl).2.le le_rfl (h1 l hl)
    push_cast at this
    norm_num at this ⊢
    exact this
  have hmu : 0 < mu := lt_of_lt_of_le (by norm_num) hk.mu.1
  have hm' : (0 : ℝ) < m := by exact_mod_cast hm0
  have ht : ∀ E, 0 < E → 0 ≤ (KN.electron k Z).total k E := by
    intro E hE
    refine le_trans ?_ (compton_bounds hk (Z := Z) (Nat.cast_nonneg Z) hE).2
    have := KN.angInt_pos (div_nonneg hE.le k.me_pos.le)
    positivity
  have cast : ((9999 / 10000 : ℚ) : ℝ) = 0.9999 := by norm_num
  have hlow : ∀ E v, 0 < E → (∀ r ∈ ls.map fun l => ((l.energy.value : ℝ), (l.mu.value : ℝ)), E < r.1) →
      HasValue (ls.map fun l => ((l.energy.value : ℝ), (l.mu.value : ℝ))) E v →
      0.9999 * (KN.electron k Z).total k E ≤ 1e29 * m * mu * v := by
    intro E v hE hlt hv
    obtain ⟨a, ha⟩ := Option.isSome_iff_exists.1 (List.isSome_head?.2 hp.1)
    have hv' := call_below hp hE.le ha hlt
    obtain ⟨l, hl, rfl⟩ := Option.map_eq_some_iff.1 ((List.head?_map ..).symm.trans ha)
    obtain rfl : (l.mu.value : ℝ) = v := Fl.fin.inj (Except.ok.inj (hv'.symm.trans hv))
    rw [hl] at h3
    simp only [Option.any_some, decide_eq_true_eq] at h3
    have := compton_le hk (m := m) (y := l.mu.value) (c := 9999 / 10000) (v := l.mu.value) (Z := Z) (E := E) (q := 0)
      hE (by simpa using hE.le) (by norm_num) hm0.le (hg.pos l (List.mem_of_mem_head? hl)).2.le le_rfl
      (by rw [show KN.stdUp 0 = 8 / 3 by decide +kernel]; exact h3)
    rwa [cast] at this
  have hhigh : ∀ E v, 0 < E → (∀ r ∈ ls.map fun l => ((l.energy.value : ℝ), (l.mu.value : ℝ)), r.1 < E) →
      HasValue (ls.map fun l => ((l.energy.value : ℝ), (l.mu.value : ℝ))) E v →
      0.9999 * (KN.electron k Z).total k E ≤ 1e29 * m * mu * v := by
    intro E v hE hgt hv
    obtain ⟨b, hb⟩ : ∃ b, _ = some b := ⟨_, List.getLast?_eq_some_getLast hp.1⟩
    have hv' := call_above hp hb hgt
    obtain ⟨l, hl, rfl⟩ := Option.map_eq_some_iff.1 ((List.getLast?_map ..).symm.trans hb)
    obtain rfl : (l.mu.value : ℝ) = v := Fl.fin.inj (Except.ok.inj (hv'.symm.trans hv))
    have hlm := List.mem_of_getLast? hl
    have hlE : (l.energy.value : ℝ) < E := hgt _ (List.mem_map.2 ⟨l, hlm, rfl⟩)
    have := compton_le hk (m := m) (y := l.mu.value) (c := 9999 / 10000) (v := l.mu.value) (Z := Z) (E := E)
      hE hlE.le (by norm_num) hm0.le (hg.pos l hlm).2.le le_rfl (h1 l hlm)
    rwa [cast] at this
  refine ⟨fun E v hE hv => ?_, fun E v hE h hv => ?_⟩
  · rcases position hs hp.1 E with ⟨a, -, hlt⟩ | ⟨b, -, hgt⟩ | hr | ⟨pre, a, b, post, e, h4, h5⟩
    · linarith [hlow E v hE hlt hv, ht E hE]
    · linarith [hhigh E v hE hgt hv, ht E hE]
    · linarith [hnode E v hr hv, ht E hE]
    · have hv' := C49_power_law hp hs pre post (E0 := a.1) (y0 := a.2) (E1 := b.1) (y1 := b.2) e h4 h5
      obtain rfl := Fl.fin.inj (Except.ok.inj (hv'.symm.trans hv))
      obtain ⟨l1, l2, hl, hl1, hl2⟩ := List.map_eq_append_iff.1 e
      obtain ⟨la, l3, rfl, rfl, hl3⟩ := List.map_eq_cons_iff.1 hl2
      obtain ⟨lb, l4, rfl, rfl, hl4⟩ := List.map_eq_cons_iff.1 hl3
      subst hl
      have hla := hg.pos la (by simp)
      have hlb := hg.pos lb (by simp)
      have h7 := (List.isChain_cons_cons.1 (List.isChain_append.1 h2).2.1).1
      have h7' := (Rat.cast_le (K := ℝ)).2 h7
      push_cast at h7'
      have pa : (0 : ℝ) < la.energy.value := by exact_mod_cast hla.1
      have pb : (0 : ℝ) < lb.energy.value := by exact_mod_cast hlb.1
      have k0 := compton_le hk (m := m) (y := la.mu.value) (c := 9999 / 10000) (v := la.mu.value) (Z := Z)
        (E := la.energy.value) pa le_rfl (by norm_num) hm0.le hla.2.le le_rfl (h1 la (by simp))
      have k1 := compton_le hk (m := m) (y := lb.mu.value) (c := 9999 / 10000) (v := lb.mu.value) (Z := Z)
        (E := lb.energy.value) pb le_rfl (by norm_num) hm0.le hlb.2.le le_rfl (h1 lb (by simp))
      rw [cast] at k0 k1
      have hZ0 : (0 : ℝ) < Z := by
        have := List.mem_range'_1.1 hZ
        exact_mod_cast this.1
      have hA : (0 : ℝ) < 1e29 * m * mu := by positivity
      obtain ⟨t1, t2, -⟩ := C44_total k (KN.electron k Z) hZ0 k.me_pos
      have := power_law_below pa h4 h5 h7' (by exact_mod_cast hla.2) (by exact_mod_cast hlb.2) (t1 E hE) hA (by norm_num)
        (t2 pa hE h4).le (C44_growth k (KN.electron k Z) hZ0 k.me_pos (Set.mem_Ioi.2 hE) (Set.mem_Ioi.2 pb) h5).le k0 k1
      have := t1 E hE
      linarith
  · rcases h with h | h | h
    · exact hnode E v h hv
    · exact hlow E v hE h hv
    · exact hhigh E v hE h hv

/-- C176 is false of the code: according to the table of aluminium atoms, they do not scatter at all, because the import assigns the
mass zero to elements with one natural isotope (C58). -/
theorem C176_refuted {k : PhysConst} {mu : ℝ} (hk : NearCodata k mu) :
    ∃ st a, importXrmac shippedNist.render shippedDensities.render xrmacText mu = .ok st ∧
      dictGet "Al".toList st.perAtom = .ok a ∧
      ∀ E, 0 < E → a.call E = .ok (.fin 0) ∧ 0 < (KN.electron k 13).total k E := by
  have hmu : 0 < mu := lt_of_lt_of_le (by norm_num) hk.mu.1
  obtain ⟨st, h1, h2⟩ := C73_partial hmu
  obtain ⟨g, a, -, h3, h4⟩ := h2 13 (by decide)
  refine ⟨st, a, h1, by rw [← symbol13]; exact h3, fun E hE => ?_⟩
  obtain ⟨v, -, -, -, -, h5⟩ := h4 E hE.le
  refine ⟨h5 (.inr (by decide)), lt_of_lt_of_le ?_ (compton_bounds hk (by norm_num : (0 : ℝ) ≤ 13) hE).2⟩
  have := KN.angInt_pos (div_nonneg hE.le k.me_pos.le)
  positivity

/-- C176, proved part: for every element whose mass is not read as zero, the attenuation cross section of an atom is at least the
Klein-Nishina cross section of its electrons: at every tabulated energy and at the energies below the first and above the last one up to 0.01 %, and in between at least 89.99 % of it.
Missing for the full statement: the 22 elements with a single natural isotope and those without tabulated composition, for which it
is false (`C176_refuted`); the precision of 0.01 % between the tabulated energies. -/
theorem C176_partial {k : PhysConst} {mu : ℝ} (hk : NearCodata k mu) :
    ∃ st, importXrmac shippedNist.render shippedDensities.render xrmacText mu = .ok st ∧
      ∀ Z ∈ List.range' 1 92, Tabulated Z → Z ∉ singleIsotope →
        ∃ a, dictGet (symbolOf Z) st.perAtom = .ok a ∧ ∀ E, 0 < E → ∃ w, a.call E = .ok (.fin w) ∧
          0.8999 * (KN.electron k Z).total k E ≤ w ∧
          ((∃ r ∈ tableOf Z, r.1 = E) ∨ (∀ r ∈ tableOf Z, E < r.1) ∨ (∀ r ∈ tableOf Z, r.1 < E) → 0.9999 * (KN.electron k Z).total k E ≤ w) := by
  have hmu : 0 < mu := lt_of_lt_of_le (by norm_num) hk.mu.1
  obtain ⟨syms, els, h1, h2⟩ := shipped_loopInput
  obtain ⟨st, h3, -, -, -, h5⟩ := moduleLoop_ok (mu := mu) h2
  refine ⟨st, importXrmac_ok h1 h3, fun Z hZ ht hn => ?_⟩
  obtain ⟨g, a, -, h7, -, h9, -⟩ := h5 Z hZ
  refine ⟨a, h7, fun E hE => ?_⟩
  obtain ⟨rows, h12, h13⟩ := read_shipped hZ fun y => y * fm2PerAtom mu (shippedElement Z).amu
  obtain rfl := Except.ok.inj (h9.symm.trans h12)
  have hpos : 0 < (shippedElement Z).amu := by
    obtain ⟨syms', els', e1, e2⟩ := C58_partial
    rw [h1] at e1
    obtain ⟨rfl, rfl⟩ := Prod.mk.inj (Except.ok.inj e1)
    have sub : Z ∈ List.range' 1 118 := by
      rw [List.mem_range'_1] at hZ ⊢
      omega
    obtain ⟨e, e3, -, e5, -⟩ := e2 Z sub
    rw [h2.element Z hZ] at e3
    obtain rfl := Except.ok.inj e3
    exact (e5 ht hn).1
  obtain ⟨c1, c2⟩ := compton_table hk hZ rfl hpos
  generalize (shippedElement Z).amu = m at h13 hpos c1 c2
  obtain ⟨v, -, hv, hs⟩ := both_units (tableOf_pos hZ) hmu hpos.le hE.le
  exact ⟨_, by rw [StoredXrmac.call, h13, hs], c1 E v hE hv, fun hr => c2 E v hE hr hv⟩

theorem symbol1 : symbolOf 1 = "H".toList := by decide +kernel

theorem hydrogen_natural : Tabulated 1 ∧ 1 ∉ singleIsotope := by decide +kernel

/-- C176, sharp for hydrogen: between 20 keV and 2 MeV, the tabulated attenuation of a hydrogen atom is the Klein-Nishina cross
section of its electron within 0.3 %. -/
theorem C176_hydrogen {k : PhysConst} {mu : ℝ} (hk : NearCodata k mu) :
    ∃ st a, importXrmac shippedNist.render shippedDensities.render xrmacText mu = .ok st ∧
      dictGet "H".toList st.perAtom = .ok a ∧
      ∀ E, (∃ r ∈ tableOf 1, r.1 = E) → 0.02 ≤ E → E ≤ 2 → ∃ w, a.call E = .ok (.fin w) ∧
        0.9999 * (KN.electron k 1).total k E ≤ w ∧ w ≤ 1.003 * (KN.electron k 1).total k E := by
  have hmu : 0 < mu := lt_of_lt_of_le (by norm_num) hk.mu.1
  have hZ : 1 ∈ List.range' 1 92 := by decide
  obtain ⟨st, h1, h2⟩ := C176_partial hk
  obtain ⟨a, h3, h4⟩ := h2 1 hZ hydrogen_natural.1 hydrogen_natural.2
  obtain ⟨st', h1', h2'⟩ := C73_partial hmu
  obtain rfl := Except.ok.inj (h1.symm.trans h1')
  obtain ⟨g, a', hg, h3', h4'⟩ := h2' 1 hZ
  obtain rfl := Except.ok.inj (h3.symm.trans h3')
  refine ⟨st, a, h1, by rw [← symbol1]; exact h3, fun E hr hE1 hE2 => ?_⟩
  have hE : 0 < E := lt_of_lt_of_le (by norm_num) hE1
  obtain ⟨w, hw, -, hw2⟩ := h4 E hE
  refine ⟨w, hw, by simpa using hw2 (.inl hr), ?_⟩
  obtain ⟨v, hv0, hgv, hav, -⟩ := h4' E hE.le
  obtain rfl : _ = w := Fl.fin.inj (Except.ok.inj (hav.symm.trans hw))
  -- the value of the row
  obtain ⟨l, hl, hlE, hlv⟩ : ∃ l ∈ xrmacLines 1, (l.energy.value : ℝ) = E ∧ (l.mu.value : ℝ) = v := by
    obtain ⟨syms, els, i1, i2⟩ := shipped_loopInput
    obtain ⟨st2, i3, -, -, -, i5⟩ := moduleLoop_ok (mu := mu) i2
    obtain rfl := Except.ok.inj (h1.symm.trans (importXrmac_ok i1 i3))
    obtain ⟨g2, a2, i6, -, i8, -⟩ := i5 1 hZ
    obtain rfl := Except.ok.inj (hg.symm.trans i6)
    obtain ⟨rows, i10, i11⟩ := read_shipped hZ id
    obtain rfl := Except.ok.inj (i8.symm.trans i10)
    obtain ⟨pre, c, post, e1, e2, e3⟩ := last_row (tableOf_sorted hZ) hr
    have hv' := C48_nodes (tableOf_pos hZ) pre post (E := c.1) (y := c.2) e1 (fun r hr => (e2 ▸ e3 r hr).ne')
    rw [StoredXrmac.call, i11] at hgv
    simp only [id, Prod.mk.eta, List.map_id'] at hgv
    rw [e2] at hv'
    have hcv : c.2 = v := Fl.fin.inj (Except.ok.inj (hv'.symm.trans hgv))
    have hc : c ∈ tableOf 1 := by rw [e1]; simp
    unfold tableOf at hc
    obtain ⟨l, hl, rfl⟩ := List.mem_map.1 hc
    exact ⟨l, hl, e2, hcv⟩
  have hh := List.all_eq_true.1 shipped_hydrogen l hl
  have hpos := ((shipped_good hZ).pos l hl).2
  clear hl
  have hm : 0 ≤ (shippedElement 1).amu := by decide +kernel
  generalize (shippedElement 1).amu = m at hh hm ⊢
  simp only [Bool.or_eq_true, decide_eq_true_eq, List.any_eq_true, Bool.and_eq_true] at hh
  have hh := hh.resolve_left (by
    rintro (h | h)
    · have := (Rat.cast_lt (K := ℝ)).2 h
      rw [hlE] at this
      norm_num at this hE1
      linarith
    · have := (Rat.cast_lt (K := ℝ)).2 h
      rw [hlE] at this
      norm_num at this
      linarith)
  obtain ⟨p, hp, hpE, hpm⟩ := hh
  have hpE' : E = (p.1 : ℝ) / 10000 := by
    rw [← hlE, hpE]
    push_cast
    rfl
  have hb := (KN.std_bounds hp hk.me.1 hk.me.2).2 hpE'
  have ht := (compton_bounds hk (zero_le_one' ℝ) hE).2
  have hpm' := (Rat.cast_le (K := ℝ)).2 hpm
  push_cast at hpm'
  rw [hlv] at hpm'
  have hm' : (0 : ℝ) ≤ m := by exact_mod_cast hm
  calc 1e29 * (m : ℝ) * mu * v = (1e29 * mu) * (m * v) := by ring
    _ ≤ (1e29 * 1.66054e-27) * (m * v) := by
        have := hk.mu.2
        gcongr
    _ = 166054 / 1000 * m * v := by ring
    _ ≤ 1003 / 1000 * ((249465 / 10000) * ((p.2.2.1 : ℝ) / 10000000)) := hpm'
    _ = 1.003 * (1 * 24.9465 * ((p.2.2.1 : ℝ) / 10000000)) := by ring
    _ ≤ 1.003 * (1 * 24.9465 * KN.angInt (E / k.me)) := by gcongr
    _ ≤ _ := by
        gcongr

/-- The hypothesis of C176 is met by the constants of every edition. -/
theorem editions_near (e : Edition) : ∃ k, constKN e = .ok k ∧ NearCodata k 1.66053906660e-27 := by
  have h : ∀ me al hc : ℝ, (0.5109989 ≤ me ∧ me ≤ 0.511) → (0.00729735 ≤ al ∧ al ≤ 0.00729736) →
      (197.3269 ≤ hc ∧ hc ≤ 197.327) → ∃ k, mkConst me al hc 1 1 = .ok k ∧ NearCodata k 1.66053906660e-27 := by
    intro me al hc h1 h2 h3
    refine ⟨⟨me, al, hc, 1, 1, by linarith, by linarith, by linarith, by norm_num, by norm_num⟩, ?_, h1, h2, h3, by norm_num⟩
    rw [mkConst, dif_pos ⟨by linarith, by linarith, by linarith, by norm_num, by norm_num⟩]
  cases e
  · obtain ⟨k, h1, h2⟩ := h 0.5109989461 7.2973525664e-3 197.3269788 (by norm_num) (by norm_num) (by norm_num)
    exact ⟨k, by simp [constKN, physicalConstants, codata2014, lookup, Bind.bind, Except.bind, h1], h2⟩
  · obtain ⟨k, h1, h2⟩ := h 0.51099895 7.2973525693e-3 197.3269788 (by norm_num) (by norm_num) (by norm_num)
    exact ⟨k, by simp [constKN, physicalConstants, codata2014, codata2018, lookup, Bind.bind, Except.bind, h1], h2⟩
  · obtain ⟨k, h1, h2⟩ := h 0.51099895069 7.2973525643e-3 197.3269788 (by norm_num) (by norm_num) (by norm_num)
    exact ⟨k, by simp [constKN, physicalConstants, codata2014, codata2018, codata2022, lookup, Bind.bind, Except.bind, h1], h2⟩

example : ∃ k, constKN .e2018 = .ok k ∧ NearCodata k 1.66053906660e-27 := editions_near _

/-- C176_partial applies to 62 elements. -/
example : ((List.range' 1 92).filter fun Z => decide (Tabulated Z ∧ Z ∉ singleIsotope)).length = 62 := by decide +kernel

end Ries
