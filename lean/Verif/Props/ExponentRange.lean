import Verif.Lemmas.ExponentRange
import Verif.Props.RoundedReso
import Verif.Lemmas.ExponentRangeKN
import Verif.Props.RoundedThermal
import Verif.Props.RoundedKN

/-! # Property C155: overflow and underflow -/

namespace Ries

open KN

variable {u : ℝ} {A : RArith}

theorem Level.InRange.physical {l : Level} (h : l.InRange) : l.Physical := fun pw hp => ⟨(h pw hp).1, fun x hx => ((h pw hp).2.2 x hx).1⟩

/-- C155, Breit-Wigner: with an arithmetic that is accurate only as long as a result neither overflows nor underflows, the error bound
of C94 still holds if the partial widths are zero or between `2⁻¹⁰⁰` and `2¹⁰⁰` MeV, the transition energy between `2⁻⁶⁰` and `2⁶⁰`
MeV and the distance from the resonance zero or between `2⁻¹⁰⁰` and `2⁶⁰` MeV (angular momenta below 500, at most a million channels). -/
theorem C155_breit_wigner (hA : A.AccurateInRange u) (hu : 0 ≤ u) (hu1 : u ≤ 1 / 2 ^ 21) {k : PhysConst} (hk : k.InRange)
    {init inter : Level} {final : Option Level} {r : Reso} {w : ℝ} (hr : mkBreitWigner k init inter final = .ok r)
    (hl : inter.InRange) (hJ : |inter.twoJ + 1| ≤ 2 ^ 10) (hJ0 : |init.twoJ + 1| ≤ 2 ^ 10) (hw : inter.width = .ok w) (hpos : 0 < w)
    (hE : Mag (-60) 60 (inter.exc - init.exc)) (hex : A.fl (inter.exc - init.exc) = inter.exc - init.exc)
    (hN : (4 * inter.channels + 34 : ℝ) * u ≤ 1 / 200) {E : ℝ} (hd : Mag (-100) 60 (E - (inter.exc - init.exc))) :
    ∃ σ σ', r.call E = .ok (.fin σ) ∧ A.breitWigner k init inter final E = .ok (.fin σ') ∧
      |σ' - σ| ≤ 1.01 * (4 * inter.channels + 34) * u * |σ| := by
  rw [RArith.breitWigner_same hA hu hu1 hk hl final hJ hJ0 hE (by rw [hex]; exact hd)]
  exact C94_breit_wigner (RArith.complete_accurate hA hu) hu hr hl.physical hw hpos
    (by rw [RArith.complete_fl hE (by norm_num) (by norm_num), hex]) hN E

/-- C155, Gauss: likewise for C95, up to 14 Doppler widths from the resonance energy. -/
theorem C155_gauss (hA : A.AccurateInRange u) (hu : 0 ≤ u) (hu1 : u ≤ 1 / 2 ^ 21) {k : PhysConst} (hk : k.InRange)
    {init inter : Level} {amu T : ℝ} {final : Option Level} {r : Reso} (hr : mkGauss k init inter amu T final = .ok r)
    (hl : inter.InRange) (hJ : |inter.twoJ + 1| ≤ 2 ^ 10) (hJ0 : |init.twoJ + 1| ≤ 2 ^ 10) (ha : 0 < amu) (ha' : Mag (-20) 20 amu)
    (hT : 0 < T) (hT' : Mag (-60) 60 T) (hpos : init.exc < inter.exc) (hE : Mag (-60) 60 (inter.exc - init.exc))
    (hex : A.fl (inter.exc - init.exc) = inter.exc - init.exc) {E : ℝ} (hd : Mag (-100) 60 (E - (inter.exc - init.exc)))
    (ht : ((E - r.er) / dopplerWidth k amu T r.er) ^ 2 ≤ 200)
    (hN : (inter.channels + 41 + 31 * ((E - r.er) / dopplerWidth k amu T r.er) ^ 2 : ℝ) * u ≤ 1 / 200) :
    ∃ σ σ', r.call E = .ok (.fin σ) ∧ A.gauss k init inter amu T final E = .ok (.fin σ') ∧
      |σ' - σ| ≤ 1.03 * (inter.channels + 41 + 31 * ((E - r.er) / dopplerWidth k amu T r.er) ^ 2) * u * |σ| := by
  have hu1' : u ≤ 1 / 100 := hu1.trans (by norm_num)
  have hu0 : u < 1 := by linarith
  have hB := RArith.complete_accurate hA hu
  have hex' : A.complete.fl (inter.exc - init.exc) = inter.exc - init.exc := by
    rw [RArith.complete_fl hE (by norm_num) (by norm_num), hex]
  suffices h : A.gauss k init inter amu T final E = A.complete.gauss k init inter amu T final E by
    rw [h]
    exact C95_gauss hB hu hr hl.physical ha hT hpos hex' E hN
  obtain ⟨r0, h0, -, rfl⟩ := mkGauss_inv hr
  have her : r0.er = inter.exc - init.exc := (mkResonance_inv h0).1
  have her0 : 0 < r0.er := by rw [her]; linarith
  simp only at ht
  obtain ⟨e1, h1⟩ := RArith.mkResonance_same hA hu hu1 hk hl final hJ hJ0 hE
  obtain ⟨ics, eics, -⟩ := RArith.resonance_rel hB hu hu1' hl.physical hex' h0
  obtain ⟨d', ed, rd⟩ := RArith.doppler_rel (A := A.complete) hB hu hu0 k ha hT.le r0.er
  have hds := RArith.doppler_same hA hu hu1 hk ha.le ha' hT.le hT' (by rw [her]; exact hE.mono (by norm_num) (by norm_num) : Mag (-61) 61 r0.er)
  have hmd := hds.2 d' ed
  have h2 := Same.rsqrt (a := 0) (b := 1) hA hu1' ((Same.num (x := 2) 1 1 (by norm_num) (by norm_num)).mono (by norm_num) (by norm_num))
    (by norm_num) (by norm_num) (by norm_num)
  have hs := ((Same.refl hmd).div h2).fl hA hu1' (by norm_num) (by norm_num)
  have r2 := RArith.sqrt_rel (A := A.complete) hB hu hu0 (by norm_num : (0 : ℝ) ≤ 2) (Rel.refl (n := 0) hu hu0 2)
  have rs := (rd.div hu0 r2).round hB.fl hu hu0
  have r0' : ∀ x : ℝ, Rel u 0 x x := fun x => Rel.refl hu hu0 x
  have hz := (((r0' (E - r0.er)).round hB.fl hu hu0).div hu0 rs).round hB.fl hu hu0
  have hz2 := (Rel.weaken hu hu1' (hB.sq _)).trans hu0 (hz.pow hu0 2)
  have hneg : ∀ {n a b}, Rel u n a b → Rel u n (-a) (-b) := by
    rintro n a b ⟨θ, h1, h2, rfl⟩; exact ⟨θ, h1, h2, by ring⟩
  have hx := ((hneg hz2).div hu0 (r0' 2)).round hB.fl hu hu0
  have hxa := (hx.mono hu hu0 (m := 100) (by omega)).abs_le hu (by
    push_cast
    calc (100 : ℝ) * u ≤ 100 * (1 / 2 ^ 21) := by gcongr
      _ ≤ _ := by norm_num)
  set x' := A.complete.fl (-A.complete.sq (A.complete.fl (A.complete.fl (E - r0.er) / A.complete.fl (d' / A.complete.sqrt 2))) / 2) with hx'
  have et : |(-((E - r0.er) / (Ries.dopplerWidth k amu T r0.er / Real.sqrt 2)) ^ 2 / 2)| ≤ 200 := by
    have : ((E - r0.er) / (Ries.dopplerWidth k amu T r0.er / Real.sqrt 2)) ^ 2 / 2 = ((E - r0.er) / Ries.dopplerWidth k amu T r0.er) ^ 2 := by
      rw [div_pow, div_pow, div_pow, Real.sq_sqrt (by norm_num)]
      field_simp
    rw [neg_div, abs_neg, this, abs_of_nonneg (sq_nonneg _)]
    exact ht
  have hx220 : |x'| ≤ 220 := by
    set x := -((E - r0.er) / (Ries.dopplerWidth k amu T r0.er / Real.sqrt 2)) ^ 2 / 2
    have h5 : |x'| ≤ |x' - x| + |x| := by simpa using abs_add_le (x' - x) x
    have h6 : 1.01 * ((100 : ℕ) : ℝ) * u ≤ 0.05 := by
      push_cast
      have : u ≤ 1 / 2097152 := hu1.trans (by norm_num)
      linarith
    have h7 : 1.01 * ((100 : ℕ) : ℝ) * u * |x| ≤ 0.05 * 200 := mul_le_mul h6 et (abs_nonneg _) (by norm_num)
    linarith
  have hn := RArith.norm_same (l := r0.er) (E := E) hA hu hu1 (hs.2.mono (by norm_num) (by norm_num) : Mag (-139) 119 _) (by rw [her]; exact hd) hx220
  have hv := ((Same.refl (h1 _ _ eics)).mul hn).fl hA hu1' (by norm_num) (by norm_num)
  simp only [RArith.gauss, bind, Except.bind]
  rw [e1, eics]
  simp only
  rw [hds.1, ed]
  simp only
  rw [hs.1, hv.1]

/-- C155, recoil: likewise for C137. -/
theorem C155_recoil (hA : A.AccurateInRange u) (hu : 0 ≤ u) (hu1 : u ≤ 1 / 2 ^ 21) {k : PhysConst} (hk : k.InRange) {amu dE : ℝ}
    (ha : 0 < amu) (ha' : Mag (-20) 20 amu) (hd : 0 ≤ dE) (hd' : Mag (-60) 60 dE) :
    ∃ e, A.freeNucleusRecoil k amu dE = .ok e ∧ |e - freeNucleusRecoil k amu dE| ≤ 1.01 * 5 * u * |freeNucleusRecoil k amu dE| := by
  rw [(RArith.recoil_same hA hu hu1 hk ha.le ha' hd hd').1]
  obtain ⟨e, h1, h2, -⟩ := C137_recoil (RArith.complete_accurate hA hu) hu (hu1.trans (by norm_num)) k ha hd
  exact ⟨e, h1, h2⟩

/-- C155, Doppler widths and effective temperatures: likewise for C137. -/
theorem C155_doppler (hA : A.AccurateInRange u) (hu : 0 ≤ u) (hu1 : u ≤ 1 / 2 ^ 21) {k : PhysConst} (hk : k.InRange) {amu T E : ℝ}
    (ha : 0 < amu) (ha' : Mag (-20) 20 amu) (hT : 0 ≤ T) (hT' : Mag (-60) 60 T) (hE : E ≠ 0) (hE' : Mag (-61) 61 E) :
    ∃ d T', A.dopplerWidth k amu T E = .ok d ∧ |d - dopplerWidth k amu T E| ≤ 1.01 * 8 * u * |dopplerWidth k amu T E| ∧
      A.effectiveTemperature k d amu E = .ok T' ∧ |T' - T| ≤ 1.01 * 25 * u * T := by
  have hB := RArith.complete_accurate hA hu
  have hs := RArith.doppler_same hA hu hu1 hk ha.le ha' hT hT' hE'
  obtain ⟨d, T', h1, h2, h3⟩ := C137_roundtrip hB hu (hu1.trans (by norm_num)) k ha hT hE
  obtain ⟨d', h4, h5⟩ := C137_doppler (E := E) hB hu (hu1.trans (by norm_num)) k ha hT
  rw [h1] at h4
  cases h4
  refine ⟨d, T', by rw [hs.1, h1], h5, ?_, h3⟩
  rw [RArith.temperature_same hA hu1 hk (hs.2 d h1) ha' hE', h2]

/-- C155, Klein-Nishina: likewise for C84, at energies between `2⁻¹⁹` and `2⁵⁹` masses (from 1 eV for electrons). -/
theorem C155_klein_nishina {a : KN.Arith} (ha : a.AccurateInRange u) (hu : 0 ≤ u) (hu1 : u ≤ 1 / 2 ^ 30) {k : PhysConst} (hk : k.InRange)
    {s : KN} (hZ : 0 < s.Z) (hZ' : Mag (-20) 20 s.Z) (hm : 0 < s.mc2) (hm' : Mag (-20) 20 s.mc2) {E : ℝ} (h1 : 1 / 2 ^ 19 ≤ E / s.mc2)
    (h2 : E / s.mc2 ≤ 2 ^ 59) :
    |totalR a k s E - s.total k E| ≤ 150 * u * (1 + s.mc2 / E) ^ 3 * (1 + Real.log (1 + 2 * E / s.mc2)) * s.total k E := by
  rw [totalR_same ha hu (hu1.trans (by norm_num)) hu1 hk hZ' hm' h1 h2]
  refine C84_partial (Arith.complete_accurate ha hu) hu (hu1.trans (by norm_num)) k s hZ hm E ?_
  have : 0 < E / s.mc2 := lt_of_lt_of_le (by norm_num) h1
  exact (div_pos_iff_of_pos_right hm).1 this

/-! ## Double precision -/

theorem rnRange_accurate (c : ℝ) {x : ℝ} (h : Normal x) : |rnRange c x - x| ≤ 1 / 2 ^ 53 * |x| := by
  rcases h with rfl | ⟨h1, h2⟩
  · have : rnRange c 0 = 0 := by
      unfold rnRange
      rw [if_pos (by rw [abs_zero]; positivity)]
      simp
    rw [this]; simp
  · unfold rnRange
    rw [if_neg (not_lt.2 h1), if_pos h2]
    exact rn_rounding x

/-- Double precision with gradual underflow; results that overflow are replaced by `c`. -/
noncomputable def exRange (c : ℝ) : RArith :=
  ⟨rnRange c, fun x => rnRange c (x ^ 2), fun x => rnRange c (Real.exp x), fun x => rn (Real.sqrt x)⟩

theorem exRange_accurate (c : ℝ) : (exRange c).AccurateInRange (1 / 2 ^ 53) where
  fl x h := rnRange_accurate c h
  sq x h := (rnRange_accurate c h).trans (mul_le_mul_of_nonneg_right (by norm_num) (abs_nonneg _))
  exp x h := (rnRange_accurate c h).trans (mul_le_mul_of_nonneg_right (by norm_num) (abs_nonneg _))
  sqrt x _ _ := rn_rounding _

/-- This arithmetic is not accurate in the sense of C94: a product of small numbers underflows to zero. -/
theorem exRange_not_accurate (c : ℝ) {u : ℝ} (hu1 : u < 1) : ¬ (exRange c).Accurate u := by
  intro h
  have h1 := h.fl (2 ^ (-1076 : ℤ))
  have e : (exRange c).fl (2 ^ (-1076 : ℤ)) = 0 := by
    show rnRange c (2 ^ (-1076 : ℤ)) = 0
    unfold rnRange
    rw [if_pos (by rw [abs_of_pos (by positivity)]; exact zpow_lt_zpow_right₀ (by norm_num) (by norm_num))]
    have : (2 : ℝ) ^ (-1076 : ℤ) * 2 ^ (1074 : ℕ) = 1 / 4 := by
      rw [← zpow_natCast, ← zpow_add₀ (by norm_num)]
      norm_num
    rw [this, show round (1 / 4 : ℝ) = 0 by rw [round_eq_zero_iff]; constructor <;> norm_num]
    simp
  rw [e, zero_sub, abs_neg] at h1
  have h2 : (0 : ℝ) < |(2 : ℝ) ^ (-1076 : ℤ)| := by positivity
  nlinarith

theorem exConst_inRange : exConst.InRange where
  hbarc := Mag.of_bounds (by norm_num [exConst]) (by norm_num [exConst])
  alpha := Mag.of_bounds (by norm_num [exConst]) (by norm_num [exConst])
  u := Mag.of_bounds (by norm_num [exConst]) (by norm_num [exConst])
  kB := Mag.of_bounds (by norm_num [exConst]) (by norm_num [exConst])

theorem exExcited_inRange : exExcited.InRange := by
  intro pw h
  simp only [exExcited, state, Option.some.injEq] at h
  subst h
  refine ⟨by decide, by simp, ?_⟩
  intro x hx
  simp only [List.mem_cons, List.not_mem_nil, or_false] at hx
  rcases hx with rfl | rfl <;> exact ⟨by norm_num, Mag.of_bounds (by norm_num) (by norm_num)⟩

theorem exExcited_diff : exExcited.exc - exGround.exc = 2 := by simp [exExcited, exGround, state, groundState]

theorem exRange_two (c : ℝ) : (exRange c).fl 2 = 2 := by
  show rnRange c 2 = 2
  unfold rnRange
  have l : (2 : ℝ) ^ (-1022 : ℤ) ≤ 2 ^ (1 : ℤ) := zpow_le_zpow_right₀ (by norm_num) (by norm_num)
  have r : (2 : ℝ) ^ (1 : ℤ) ≤ 2 ^ (1023 : ℤ) := zpow_le_zpow_right₀ (by norm_num) (by norm_num)
  rw [zpow_one] at l r
  rw [abs_of_pos (by norm_num : (0 : ℝ) < 2), if_neg (not_lt.2 l), if_pos r]
  exact_mod_cast rn_exact (n := 2) (by norm_num)

/-- The excited state at 2 MeV of the other examples, at 3 MeV. -/
example (c : ℝ) : ∃ r σ σ', mkBreitWigner exConst exGround exExcited none = .ok r ∧ r.call 3 = .ok (.fin σ) ∧
    (exRange c).breitWigner exConst exGround exExcited none 3 = .ok (.fin σ') ∧ |σ' - σ| ≤ 5e-15 * |σ| := by
  obtain ⟨r, h, -⟩ := exBreitWigner
  have hc : (exExcited.channels : ℝ) = 2 := by norm_num [Level.channels, exExcited, state]
  obtain ⟨σ, σ', h1, h2, h3⟩ := C155_breit_wigner (E := 3) (exRange_accurate c) (by norm_num) (by norm_num) exConst_inRange h exExcited_inRange
    (by simp [exExcited, state]) (by simp [exGround, groundState]) exExcited_width (by norm_num)
    (by rw [exExcited_diff]; exact Mag.of_bounds (by norm_num) (by norm_num))
    (by rw [exExcited_diff]; exact exRange_two c) (by rw [hc]; norm_num)
    (by rw [exExcited_diff]; exact Mag.of_bounds (by norm_num) (by norm_num))
  refine ⟨r, σ, σ', h, h1, h2, h3.trans (mul_le_mul_of_nonneg_right ?_ (abs_nonneg _))⟩
  rw [hc]; norm_num

/-- The Gauss cross section of the same state at the resonance energy. -/
example (c : ℝ) : ∃ r σ σ', mkGauss exConst exGround exExcited 11 293 none = .ok r ∧ r.call 2 = .ok (.fin σ) ∧
    (exRange c).gauss exConst exGround exExcited 11 293 none 2 = .ok (.fin σ') ∧ |σ' - σ| ≤ 5e-15 * |σ| := by
  obtain ⟨r, h, he⟩ := exGauss
  have hc : (exExcited.channels : ℝ) = 2 := by norm_num [Level.channels, exExcited, state]
  obtain ⟨σ, σ', h1, h2, h3⟩ := C155_gauss (E := 2) (exRange_accurate c) (by norm_num) (by norm_num) exConst_inRange h exExcited_inRange
    (by simp [exExcited, state]) (by simp [exGround, groundState]) (by norm_num) (Mag.of_bounds (by norm_num) (by norm_num)) (by norm_num)
    (Mag.of_bounds (by norm_num) (by norm_num)) (by have := exExcited_diff; linarith)
    (by rw [exExcited_diff]; exact Mag.of_bounds (by norm_num) (by norm_num))
    (by rw [exExcited_diff]; exact exRange_two c) (by rw [exExcited_diff, sub_self]; exact Mag.zero _ _)
    (by rw [he]; norm_num) (by rw [hc, he]; norm_num)
  refine ⟨r, σ, σ', h, h1, h2, h3.trans (mul_le_mul_of_nonneg_right ?_ (abs_nonneg _))⟩
  rw [hc, he]; norm_num

/-- Recoil and Doppler width of a nucleus of mass 11 at 2 MeV and 293 K. -/
example (c : ℝ) : (∃ e, (exRange c).freeNucleusRecoil exConst 11 2 = .ok e) ∧ ∃ d, (exRange c).dopplerWidth exConst 11 293 2 = .ok d := by
  obtain ⟨e, h, -⟩ := C155_recoil (amu := 11) (dE := 2) (exRange_accurate c) (by norm_num) (by norm_num) exConst_inRange (by norm_num)
    (Mag.of_bounds (by norm_num) (by norm_num)) (by norm_num) (Mag.of_bounds (by norm_num) (by norm_num))
  obtain ⟨d, T', h', -⟩ := C155_doppler (amu := 11) (T := 293) (E := 2) (exRange_accurate c) (by norm_num) (by norm_num) exConst_inRange
    (by norm_num) (Mag.of_bounds (by norm_num) (by norm_num)) (by norm_num) (Mag.of_bounds (by norm_num) (by norm_num)) (by norm_num)
    (Mag.of_bounds (by norm_num) (by norm_num))
  exact ⟨⟨e, h⟩, d, h'⟩

/-- Double precision with gradual underflow for the Klein-Nishina formula. -/
noncomputable def exRangeKN (c : ℝ) : KN.Arith := ⟨rnRange c, fun x => rnRange c (Real.log x), fun x => rnRange c (x ^ (-3 : ℤ))⟩

theorem exRangeKN_accurate (c : ℝ) : (exRangeKN c).AccurateInRange (1 / 2 ^ 53) where
  fl x h := rnRange_accurate c h
  lg x _ h := (rnRange_accurate c h).trans (mul_le_mul_of_nonneg_right (by norm_num) (abs_nonneg _))
  cb x _ h := (rnRange_accurate c h).trans (mul_le_mul_of_nonneg_right (by norm_num) (abs_nonneg _))
  grid x h e he := by
    have h0 : 0 < |x| := lt_of_lt_of_le (by positivity) he
    rcases h with h | ⟨h1, h2⟩
    · rw [h, abs_zero] at h0; exact absurd h0 (lt_irrefl _)
    · show ∃ n : ℤ, rnRange c x = n * 2 ^ (e - 52)
      have hl : e ≤ Int.log 2 |x| := (Int.zpow_le_iff_le_log (by norm_num) h0).1 (by exact_mod_cast he)
      refine grid_mono (c := Int.log 2 |x| - 52) (by omega) ⟨round (x * 2 ^ (52 - Int.log 2 |x|)), ?_⟩
      unfold rnRange
      rw [if_neg (not_lt.2 h1), if_pos h2, rn, show Int.log 2 |x| - 52 = -(52 - Int.log 2 |x|) by ring, zpow_neg, div_eq_mul_inv]

/-- Electrons of iron at 1 MeV. -/
example (c : ℝ) : |totalR (exRangeKN c) exConst ⟨26, 0.511⟩ 1 - KN.total exConst ⟨26, 0.511⟩ 1| ≤
    150 * (1 / 2 ^ 53) * (1 + 0.511 / 1) ^ 3 * (1 + Real.log (1 + 2 * 1 / 0.511)) * KN.total exConst ⟨26, 0.511⟩ 1 :=
  C155_klein_nishina (exRangeKN_accurate c) (by norm_num) (by norm_num) exConst_inRange (by norm_num)
    (Mag.of_bounds (by norm_num) (by norm_num)) (by norm_num) (Mag.of_bounds (by norm_num) (by norm_num)) (by norm_num) (by norm_num)

end Ries
