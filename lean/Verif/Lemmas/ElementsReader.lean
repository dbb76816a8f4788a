import Verif.Lemmas.Elements

/-! # Lemmas on the element readers: lines and paragraphs -/

namespace Ries

open Text

/-- the property names -/
def keys : List Str :=
  ["Atomic Number ".toList, "Atomic Symbol ".toList, "Mass Number ".toList,
   "Relative Atomic Mass ".toList, "Isotopic Composition ".toList]

theorem keys_props : nistProperties = keys.map (· ++ "= ".toList) := by decide

theorem keys_suffix : ∀ k ∈ keys, ∀ k' ∈ keys, k' <:+ k → k = k' := by decide

theorem keys_no_eq : ∀ k ∈ keys, '=' ∉ k := by decide

theorem contains_line {k k' v : Str} (hk : k ∈ keys) (hk' : k' ∈ keys) (hv : '=' ∉ v) :
    contains (k' ++ "= ".toList) (k ++ "= ".toList ++ v) = decide (k = k') := by
  rw [Bool.eq_iff_iff, contains_iff, decide_eq_true_iff]
  constructor
  · intro h
    exact keys_suffix k hk k' hk' (infix_prop (keys_no_eq k hk) hv h)
  · rintro rfl
    exact ⟨[], v, by simp⟩

theorem infix_concat {q l : Str} {c : Char} (hq : q ≠ []) (hc : c ∉ q) (h : q <:+: l ++ [c]) :
    q <:+: l := by
  obtain ⟨s, t, h⟩ := h
  rcases List.eq_nil_or_concat t with rfl | ⟨t', c', rfl⟩
  · exfalso
    obtain ⟨q', d, rfl⟩ := (List.eq_nil_or_concat q).resolve_left hq
    have h2 : (s ++ q') ++ [d] = l ++ [c] := by simpa using h
    obtain ⟨-, h3⟩ := List.append_inj' h2 rfl
    have : d = c := by simpa using h3
    exact hc (by simp [this])
  · have h2 : (s ++ q ++ t') ++ [c'] = l ++ [c] := by simpa using h
    obtain ⟨h3, -⟩ := List.append_inj' h2 rfl
    exact ⟨s, t', h3⟩

theorem junk_contains {l q : Str} (hl : Junk l) (hq : q ∈ nistProperties) (nl : Str)
    (hnl : nl = [] ∨ nl = ['\n']) : contains q (l ++ nl) = false := by
  rw [← Bool.not_eq_true, contains_iff]
  intro h
  refine hl.2 q hq ?_
  rcases hnl with rfl | rfl
  · simpa using h
  · have : ∀ q ∈ nistProperties, q ≠ [] ∧ '\n' ∉ q := by decide
    exact infix_concat (this q hq).1 (this q hq).2 h

/-- other properties and comments are junk -/
theorem junk_of_no_eq {l : Str} (h : '=' ∉ l) (hn : '\n' ∉ l) : Junk l := by
  refine ⟨hn, fun q hq => ?_⟩
  rw [keys_props] at hq
  obtain ⟨k, -, rfl⟩ := List.mem_map.1 hq
  exact not_infix_of_no_eq h

theorem junk_prop {k v : Str} (hk : '=' ∉ k) (hkn : '\n' ∉ k) (hv : '=' ∉ v) (hvn : '\n' ∉ v)
    (hs : ∀ k' ∈ keys, ¬ k' <:+ k) : Junk (k ++ "= ".toList ++ v) := by
  refine ⟨?_, fun q hq => ?_⟩
  · have e : "= ".toList = ['=', ' '] := rfl
    rw [e]
    simp [hkn, hvn]
  · rw [keys_props] at hq
    obtain ⟨k', hk', rfl⟩ := List.mem_map.1 hq
    exact fun h => hs k' hk' (infix_prop hk hv h)

/-! ## Values -/

theorem slice_line (k v : Str) : slice (k ++ v ++ ['\n']) k.length 1 = v := by
  rw [slice]
  have : (k ++ v ++ ['\n']).length - 1 = (k ++ v).length := by simp
  rw [this, List.take_left, List.drop_left]

theorem find_append {s : Str} {c : Char} (hs : c ∉ s) (t : Str) :
    find c (s ++ c :: t) = some s.length := by
  induction s with
  | nil => simp [find]
  | cons d s ih =>
    have hd : d ≠ c := fun h => hs (by simp [h])
    simp [find, hd, ih fun h => hs (by simp [h])]

theorem find_none {s : Str} {c : Char} (hs : c ∉ s) : find c s = none := by
  induction s with
  | nil => rfl
  | cons d s ih =>
    have hd : d ≠ c := fun h => hs (by simp [h])
    simp [find, hd, ih fun h => hs (by simp [h])]

/-- what the reader makes of a value: a plain value is lost -/
def PropValue.asRead (default : Option ℚ) : PropValue → Option ℚ
  | .unc x _ => some x.value
  | _ => default

theorem readPropertyUnc_line {k : Str} (hk : '(' ∉ k) {F : PropValue} (hF : F.Valid)
    (default : Option ℚ) :
    readPropertyUnc (k ++ F.render ++ ['\n']) k default = .ok (F.asRead default) := by
  have hx : ∀ x : Dec, '(' ∉ x.render := fun x h => (x.render_safe _ h).2.2.2.1 rfl
  cases F with
  | empty =>
    have : find '(' (k ++ [] ++ ['\n']) = none := find_none (by simp [hk])
    simp only [readPropertyUnc, upToParen, PropValue.render, this]
    simp [readProperty, slice, PropValue.asRead]
  | plain x =>
    have : find '(' (k ++ x.render ++ ['\n']) = none := find_none (by simp [hk, hx x])
    simp only [readPropertyUnc, upToParen, PropValue.render, this]
    simp [readProperty, slice, PropValue.asRead]
  | unc x u =>
    have e : k ++ PropValue.render (.unc x u) ++ ['\n'] = (k ++ x.render) ++ '(' :: (u ++ [')'] ++ ['\n']) := by
      simp [PropValue.render]
    have hf : find '(' ((k ++ x.render) ++ '(' :: (u ++ [')'] ++ ['\n'])) = some (k ++ x.render).length :=
      find_append (by simp [hk, hx x]) _
    rw [readPropertyUnc, upToParen, e, hf]
    simp only
    have ht : ((k ++ x.render) ++ '(' :: (u ++ [')'] ++ ['\n'])).take ((k ++ x.render).length + 1) =
        k ++ x.render ++ ['('] := by
      rw [show (k ++ x.render) ++ '(' :: (u ++ [')'] ++ ['\n']) =
        (k ++ x.render ++ ['(']) ++ (u ++ [')'] ++ ['\n']) by simp]
      rw [show (k ++ x.render).length + 1 = (k ++ x.render ++ ['(']).length by simp; omega]
      exact List.take_left
    have hs : slice (k ++ x.render ++ ['(']) k.length 1 = x.render := by
      rw [slice]
      have : (k ++ x.render ++ ['(']).length - 1 = (k ++ x.render).length := by simp
      rw [this, List.take_left, List.drop_left]
    rw [ht, readProperty, hs]
    simp [Dec.render_ne_nil hF.1, Dec.parse' hF.1, Except.map, PropValue.asRead]

theorem field_safe {F : PropValue} (hF : F.Valid) : '\n' ∉ F.render ∧ '=' ∉ F.render := by
  have hx : ∀ x : Dec, '\n' ∉ x.render ∧ '=' ∉ x.render :=
    fun x => ⟨fun h => (x.render_safe _ h).2.1 rfl, fun h => (x.render_safe _ h).2.2.1 rfl⟩
  cases F with
  | empty => simp [PropValue.render]
  | plain x => exact hx x
  | unc x u =>
    obtain ⟨-, h1, h2⟩ := hF
    simp [PropValue.render, hx x, h1, h2]

theorem readInt_line (k : Str) (n : ℕ) :
    readProperty (k ++ Nat.toDigits 10 n ++ ['\n']) k parseInt none = .ok (some (n : ℤ)) := by
  rw [readProperty, slice_line]
  simp [Nat.toDigits_ne_nil, parseInt_toDigits, Except.map]

theorem readStr_line (k X : Str) (hX : X ≠ []) :
    readProperty (k ++ X ++ ['\n']) k (fun s => .ok s) none = .ok (some X) := by
  rw [readProperty, slice_line]
  simp [hX, Except.map]

/-! ## The loop -/

theorem nistLoop_junk {l nl : Str} (hl : Junk l) (hnl : nl = [] ∨ nl = ['\n']) (Z : ℤ)
    (rest : List Str) (st : NistState) : nistLoop Z ((l ++ nl) :: rest) st = nistLoop Z rest st := by
  have h : ∀ q ∈ nistProperties, contains q (l ++ nl) = false := fun q hq =>
    junk_contains hl hq nl hnl
  have h1 : contains zPrefix (l ++ nl) = false := h _ (by decide)
  have h2 : contains xPrefix (l ++ nl) = false := h _ (by decide)
  have h3 : contains aPrefix (l ++ nl) = false := h _ (by decide)
  have h4 : contains amuPrefix (l ++ nl) = false := h _ (by decide)
  have h5 : contains abundancePrefix (l ++ nl) = false := h _ (by decide)
  simp [nistLoop, nistLoop.nistOther1, nistLoop.nistOther2, nistLoop.nistOther3, h1, h2, h3, h4, h5,
    bind, Except.bind]

theorem nistLoop_junks {ls : List Str} (hl : ∀ l ∈ ls, Junk l) (Z : ℤ)
    (rest : List Str) (st : NistState) :
    nistLoop Z (ls.map (· ++ ['\n']) ++ rest) st = nistLoop Z rest st := by
  induction ls with
  | nil => rfl
  | cons l ls ih =>
    rw [List.map_cons, List.cons_append, nistLoop_junk (hl l (by simp)) (.inr rfl),
      ih fun k hk => hl k (by simp [hk])]

/-- which property a line has -/
theorem contains_all {k v : Str} (hk : k ∈ keys) (hv : '=' ∉ v) :
    contains zPrefix (k ++ "= ".toList ++ v ++ ['\n']) = decide (k = "Atomic Number ".toList) ∧
    contains xPrefix (k ++ "= ".toList ++ v ++ ['\n']) = decide (k = "Atomic Symbol ".toList) ∧
    contains aPrefix (k ++ "= ".toList ++ v ++ ['\n']) = decide (k = "Mass Number ".toList) ∧
    contains amuPrefix (k ++ "= ".toList ++ v ++ ['\n']) =
      decide (k = "Relative Atomic Mass ".toList) ∧
    contains abundancePrefix (k ++ "= ".toList ++ v ++ ['\n']) =
      decide (k = "Isotopic Composition ".toList) := by
  have hv' : '=' ∉ v ++ ['\n'] := by simp [hv]
  rw [List.append_assoc]
  exact ⟨contains_line hk (k' := "Atomic Number ".toList) (by decide) hv',
    contains_line hk (k' := "Atomic Symbol ".toList) (by decide) hv',
    contains_line hk (k' := "Mass Number ".toList) (by decide) hv',
    contains_line hk (k' := "Relative Atomic Mass ".toList) (by decide) hv',
    contains_line hk (k' := "Isotopic Composition ".toList) (by decide) hv'⟩

theorem digits_no_eq (n : ℕ) : '=' ∉ Nat.toDigits 10 n := fun h => (toDigits_safe n _ h).2.2.1 rfl

/-- contains facts for the five lines of a paragraph -/
theorem contains_z {v : Str} (hv : '=' ∉ v) :
    contains zPrefix (zPrefix ++ v ++ ['\n']) = true ∧
    contains xPrefix (zPrefix ++ v ++ ['\n']) = false := by
  have h := contains_all (k := "Atomic Number ".toList) (by decide) hv
  exact ⟨h.1, h.2.1⟩

theorem contains_x {v : Str} (hv : '=' ∉ v) :
    contains zPrefix (xPrefix ++ v ++ ['\n']) = false ∧
    contains xPrefix (xPrefix ++ v ++ ['\n']) = true ∧
    contains aPrefix (xPrefix ++ v ++ ['\n']) = false ∧
    contains amuPrefix (xPrefix ++ v ++ ['\n']) = false ∧
    contains abundancePrefix (xPrefix ++ v ++ ['\n']) = false := by
  have h := contains_all (k := "Atomic Symbol ".toList) (by decide) hv
  exact h

theorem contains_a {v : Str} (hv : '=' ∉ v) :
    contains zPrefix (aPrefix ++ v ++ ['\n']) = false ∧
    contains xPrefix (aPrefix ++ v ++ ['\n']) = false ∧
    contains aPrefix (aPrefix ++ v ++ ['\n']) = true ∧
    contains amuPrefix (aPrefix ++ v ++ ['\n']) = false ∧
    contains abundancePrefix (aPrefix ++ v ++ ['\n']) = false := by
  have h := contains_all (k := "Mass Number ".toList) (by decide) hv
  exact h

theorem contains_amu {v : Str} (hv : '=' ∉ v) :
    contains zPrefix (amuPrefix ++ v ++ ['\n']) = false ∧
    contains xPrefix (amuPrefix ++ v ++ ['\n']) = false ∧
    contains aPrefix (amuPrefix ++ v ++ ['\n']) = false ∧
    contains amuPrefix (amuPrefix ++ v ++ ['\n']) = true ∧
    contains abundancePrefix (amuPrefix ++ v ++ ['\n']) = false := by
  have h := contains_all (k := "Relative Atomic Mass ".toList) (by decide) hv
  exact h

theorem contains_ab {v : Str} (hv : '=' ∉ v) :
    contains zPrefix (abundancePrefix ++ v ++ ['\n']) = false ∧
    contains xPrefix (abundancePrefix ++ v ++ ['\n']) = false ∧
    contains aPrefix (abundancePrefix ++ v ++ ['\n']) = false ∧
    contains amuPrefix (abundancePrefix ++ v ++ ['\n']) = false ∧
    contains abundancePrefix (abundancePrefix ++ v ++ ['\n']) = true := by
  have h := contains_all (k := "Isotopic Composition ".toList) (by decide) hv
  exact h

/-- the lines of a paragraph, with their newlines -/
theorem para_lines (p : Para) : p.lines.map (· ++ ['\n']) =
    [zPrefix ++ Nat.toDigits 10 p.Z ++ ['\n'], xPrefix ++ p.X ++ ['\n'],
     aPrefix ++ Nat.toDigits 10 p.A ++ ['\n'], amuPrefix ++ p.amu.render ++ ['\n'],
     abundancePrefix ++ p.comp.render ++ ['\n']] ++ p.rest.map (· ++ ['\n']) := by
  rw [Para.lines, List.map_append]
  rfl

theorem para_no_newline {p : Para} (hp : p.Valid) : ∀ l ∈ p.lines, '\n' ∉ l := by
  obtain ⟨h1, h2, h3, h4, h5, h6⟩ := hp
  have hd : ∀ n, '\n' ∉ Nat.toDigits 10 n := fun n h => (toDigits_safe n _ h).2.1 rfl
  have e : ∀ q ∈ nistProperties, '\n' ∉ q := by decide
  simp only [nistProperties, List.mem_cons, List.not_mem_nil, or_false, forall_eq_or_imp,
    forall_eq] at e
  obtain ⟨e1, e2, e3, e4, e5⟩ := e
  intro l hl
  simp only [Para.lines, List.mem_append, List.mem_cons, List.not_mem_nil, or_false] at hl
  rcases hl with (rfl | rfl | rfl | rfl | rfl) | hl
  · exact fun h => (List.mem_append.1 h).elim e1 (hd _)
  · exact fun h => (List.mem_append.1 h).elim e2 h2
  · exact fun h => (List.mem_append.1 h).elim e3 (hd _)
  · exact fun h => (List.mem_append.1 h).elim e4 (field_safe h4).1
  · exact fun h => (List.mem_append.1 h).elim e5 (field_safe h5).1
  · exact (h6 l hl).1

/-- a paragraph of a smaller atomic number is skipped -/
theorem nistLoop_para_lt {p : Para} (hp : p.Valid) {Z : ℤ} (hZ : (p.Z : ℤ) < Z) (rest : List Str)
    (st : NistState) : nistLoop Z (p.lines.map (· ++ ['\n']) ++ rest) st =
      nistLoop Z rest { st with currentZ := some (p.Z : ℤ) } := by
  obtain ⟨h1, h2, h3, h4, h5, h6⟩ := hp
  have hne : (p.Z : ℤ) ≠ Z := hZ.ne
  rw [para_lines]
  simp only [List.cons_append, List.nil_append]
  rw [nistLoop, (contains_z (digits_no_eq p.Z)).1, if_pos rfl, readInt_line]
  simp only [bind, Except.bind, if_pos hZ]
  obtain ⟨a1, a2, a3, a4, a5⟩ := contains_x h3
  rw [nistLoop, a1]
  simp only [a2, a3, a4, a5, bound, hne, bind, Except.bind, nistLoop.nistOther1, nistLoop.nistOther2,
    nistLoop.nistOther3, Bool.false_eq_true, if_false, if_true]
  obtain ⟨a1, a2, a3, a4, a5⟩ := contains_a (digits_no_eq p.A)
  rw [nistLoop, a1]
  simp only [a2, a3, a4, a5, bound, hne, bind, Except.bind, nistLoop.nistOther1, nistLoop.nistOther2,
    nistLoop.nistOther3, Bool.false_eq_true, if_false, if_true]
  obtain ⟨a1, a2, a3, a4, a5⟩ := contains_amu (field_safe h4).2
  rw [nistLoop, a1]
  simp only [a2, a3, a4, a5, bound, hne, bind, Except.bind, nistLoop.nistOther1, nistLoop.nistOther2,
    nistLoop.nistOther3, Bool.false_eq_true, if_false, if_true]
  obtain ⟨a1, a2, a3, a4, a5⟩ := contains_ab (field_safe h5).2
  rw [nistLoop, a1]
  simp only [a2, a3, a4, a5, bound, hne, bind, Except.bind, nistLoop.nistOther1, nistLoop.nistOther2,
    nistLoop.nistOther3, Bool.false_eq_true, if_false, if_true]
  exact nistLoop_junks h6 Z rest _

/-- a paragraph of a larger atomic number ends the loop -/
theorem nistLoop_para_gt {p : Para} {Z : ℤ} (hZ : Z < (p.Z : ℤ)) (rest : List Str)
    (st : NistState) : nistLoop Z (p.lines.map (· ++ ['\n']) ++ rest) st =
      .ok { st with currentZ := some (p.Z : ℤ) } := by
  rw [para_lines]
  simp only [List.cons_append, List.nil_append]
  rw [nistLoop, (contains_z (digits_no_eq p.Z)).1, if_pos rfl, readInt_line]
  simp only [bind, Except.bind]
  rw [if_neg (by omega), if_pos hZ]

/-- a paragraph of the requested atomic number adds an isotope -/
theorem nistLoop_para_eq {p : Para} (hp : p.Valid) (rest : List Str) (st : NistState) :
    nistLoop (p.Z : ℤ) (p.lines.map (· ++ ['\n']) ++ rest) st =
      nistLoop p.Z rest
        { currentZ := some (p.Z : ℤ)
          X := some (some p.X)
          A := some (some (p.A : ℤ))
          amu := some (p.amu.asRead none)
          abundances := dictSet st.abundances p.name ((p.comp.asRead (some 0)).getD 0)
          isotopes := dictSet st.isotopes p.name (p.amu.asRead none) } := by
  obtain ⟨h1, h2, h3, h4, h5, h6⟩ := hp
  rw [para_lines]
  simp only [List.cons_append, List.nil_append]
  rw [nistLoop, (contains_z (digits_no_eq p.Z)).1, if_pos rfl, readInt_line]
  simp only [bind, Except.bind]
  rw [if_neg (by omega), if_neg (by omega)]
  obtain ⟨a1, a2, a3, a4, a5⟩ := contains_x h3
  rw [nistLoop, a1]
  simp only [a2, bound, bind, Except.bind, readStr_line _ _ h1, Bool.false_eq_true, if_false, if_true]
  obtain ⟨a1, a2, a3, a4, a5⟩ := contains_a (digits_no_eq p.A)
  rw [nistLoop, a1]
  simp only [a2, a3, bound, bind, Except.bind, nistLoop.nistOther1, readInt_line,
    Bool.false_eq_true, if_false, if_true]
  obtain ⟨a1, a2, a3, a4, a5⟩ := contains_amu (field_safe h4).2
  rw [nistLoop, a1]
  simp only [a2, a3, a4, bound, bind, Except.bind, nistLoop.nistOther1, nistLoop.nistOther2,
    readPropertyUnc_line (show '(' ∉ amuPrefix by decide) h4, Bool.false_eq_true, if_false, if_true]
  obtain ⟨a1, a2, a3, a4, a5⟩ := contains_ab (field_safe h5).2
  rw [nistLoop, a1]
  simp only [a2, a3, a4, a5, bound, bind, Except.bind, nistLoop.nistOther1, nistLoop.nistOther2,
    nistLoop.nistOther3, nistAbundance, formatAX, formatD_nat,
    readPropertyUnc_line (show '(' ∉ abundancePrefix by decide) h5, Bool.false_eq_true, if_false,
    if_true]
  rw [nistLoop_junks h6]
  rfl

/-! ## The file -/

theorem dictSet_new {κ α : Type} [DecidableEq κ] {d : List (κ × α)} {k : κ} {v : α}
    (h : k ∉ d.map Prod.fst) : dictSet d k v = d ++ [(k, v)] := by
  rw [dictSet, if_neg h]

/-- the entries of a paragraph as read -/
def Para.abEntry (p : Para) : Str × ℚ := (p.name, (p.comp.asRead (some 0)).getD 0)

def Para.isoEntry (p : Para) : Str × Option ℚ := (p.name, p.amu.asRead none)

theorem nistLoop_paras {ps : List Para} (hp : ∀ p ∈ ps, p.Valid)
    (hs : ps.Pairwise fun p q => p.Z ≤ q.Z) {Z : ℕ} (st : NistState)
    (hn : (st.abundances.map Prod.fst ++ (ps.filter fun p => p.Z = Z).map Para.name).Nodup)
    (hk : st.isotopes.map Prod.fst = st.abundances.map Prod.fst) {tail : Str} (ht : Junk tail) :
    ∃ st', nistLoop Z ((ps.flatMap Para.lines).map (· ++ ['\n']) ++ [tail]) st = .ok st' ∧
      st'.abundances = st.abundances ++ (ps.filter fun p => p.Z = Z).map Para.abEntry ∧
      st'.isotopes = st.isotopes ++ (ps.filter fun p => p.Z = Z).map Para.isoEntry := by
  induction ps generalizing st with
  | nil =>
    refine ⟨st, ?_, by simp, by simp⟩
    have := nistLoop_junk ht (nl := []) (.inl rfl) Z [] st
    simpa [nistLoop] using this
  | cons p ps ih =>
    have hpv := hp p (by simp)
    have hs' := List.pairwise_cons.1 hs
    have ih := ih (fun q hq => hp q (by simp [hq])) hs'.2
    rw [List.flatMap_cons, List.map_append, List.append_assoc]
    rcases lt_trichotomy p.Z Z with h | h | h
    · have hf : (p :: ps).filter (fun p => p.Z = Z) = ps.filter fun p => p.Z = Z := by
        rw [List.filter_cons_of_neg (by simpa using h.ne)]
      rw [nistLoop_para_lt hpv (by exact_mod_cast h), hf]
      rw [hf] at hn
      exact ih { st with currentZ := some (p.Z : ℤ) } hn hk
    · subst h
      have hf : (p :: ps).filter (fun q => q.Z = p.Z) = p :: ps.filter fun q => q.Z = p.Z := by
        rw [List.filter_cons_of_pos (by simp)]
      rw [hf] at hn ⊢
      rw [nistLoop_para_eq hpv]
      have hnew : p.name ∉ st.abundances.map Prod.fst := by
        intro hc
        rw [List.map_cons] at hn
        exact (List.nodup_append.1 hn).2.2 _ hc _ (by simp) rfl
      rw [dictSet_new hnew, dictSet_new (by rw [hk]; exact hnew)]
      obtain ⟨st', h1, h2, h3⟩ := ih
        { currentZ := some (p.Z : ℤ)
          X := some (some p.X)
          A := some (some (p.A : ℤ))
          amu := some (p.amu.asRead none)
          abundances := st.abundances ++ [(p.name, (p.comp.asRead (some 0)).getD 0)]
          isotopes := st.isotopes ++ [(p.name, p.amu.asRead none)] }
        (by simpa using hn) (by simp [hk])
      refine ⟨st', h1, ?_, ?_⟩
      · rw [h2]; simp [Para.abEntry]
      · rw [h3]; simp [Para.isoEntry]
    · have hf : (p :: ps).filter (fun q => q.Z = Z) = [] := by
        rw [List.filter_eq_nil_iff]
        intro q hq
        have : Z < q.Z := by
          rcases List.mem_cons.1 hq with rfl | hq
          · exact h
          · exact lt_of_lt_of_le h (hs'.1 q hq)
        simpa using this.ne'
      rw [nistLoop_para_gt (by exact_mod_cast h), hf]
      exact ⟨_, rfl, by simp, by simp⟩

theorem nist_lines {f : NistFile} (hf : f.Valid) : lines f.render =
    (f.header ++ f.paras.flatMap Para.lines).map (· ++ ['\n']) ++ lines f.tail := by
  refine lines_flatMap (fun l => l) _ (fun l hl => ?_) _
  rcases List.mem_append.1 hl with hl | hl
  · exact (hf.1 l hl).1
  · obtain ⟨p, hp, hl⟩ := List.mem_flatMap.1 hl
    exact para_no_newline (hf.2.1 p hp) l hl

/-- an empty last line does not matter -/
theorem nistLoop_tail {tail : Str} (ht : Junk tail) (Z : ℤ) (ls : List Str) (st : NistState) :
    nistLoop Z (ls ++ lines tail) st = nistLoop Z (ls ++ [tail]) st := by
  by_cases h : tail = []
  · subst h
    have h0 : lines [] = [] := rfl
    rw [h0, List.append_nil]
    induction ls generalizing st with
    | nil =>
      have := nistLoop_junk ht (nl := []) (.inl rfl) Z [] st
      simpa [nistLoop] using this.symm
    | cons l ls ih =>
      rw [List.cons_append, nistLoop, nistLoop]
      simp only [ih]
  · rw [lines_end ht.1 h]

theorem readNist_file {f : NistFile} (hf : f.Valid) (hs : f.Sorted) {Z : ℕ}
    (hn : ((f.isotopesOf Z).map Para.name).Nodup) :
    readNist f.render Z =
      .ok ((f.isotopesOf Z).map Para.abEntry, (f.isotopesOf Z).map Para.isoEntry) := by
  obtain ⟨st', h1, h2, h3⟩ := nistLoop_paras hf.2.1 hs (Z := Z) {}
    (by simpa [NistFile.isotopesOf] using hn) rfl hf.2.2
  rw [readNist, nist_lines hf, nistLoop_tail hf.2.2, List.map_append, List.append_assoc,
    nistLoop_junks hf.1, h1]
  simp [bind, Except.bind, h2, h3, NistFile.isotopesOf]

/-! ## Symbols -/

theorem symbolLoop_junk {l nl : Str} (hl : Junk l) (hnl : nl = [] ∨ nl = ['\n'])
    (rest : List Str) (Z : Option (Option ℤ)) (d : List (Option ℤ × Option Str)) :
    symbolLoop ((l ++ nl) :: rest) Z d = symbolLoop rest Z d := by
  have h1 : contains zPrefix (l ++ nl) = false := junk_contains hl (by decide) nl hnl
  have h2 : contains xPrefix (l ++ nl) = false := junk_contains hl (by decide) nl hnl
  simp [symbolLoop, h1, h2, bind, Except.bind]

theorem symbolLoop_junks {ls : List Str} (hl : ∀ l ∈ ls, Junk l) (rest : List Str)
    (Z : Option (Option ℤ)) (d : List (Option ℤ × Option Str)) :
    symbolLoop (ls.map (· ++ ['\n']) ++ rest) Z d = symbolLoop rest Z d := by
  induction ls with
  | nil => rfl
  | cons l ls ih =>
    rw [List.map_cons, List.cons_append, symbolLoop_junk (hl l (by simp)) (.inr rfl),
      ih fun k hk => hl k (by simp [hk])]

theorem symbolLoop_para {p : Para} (hp : p.Valid) (rest : List Str) (Z : Option (Option ℤ))
    (d : List (Option ℤ × Option Str)) :
    symbolLoop (p.lines.map (· ++ ['\n']) ++ rest) Z d =
      symbolLoop rest (some (some (p.Z : ℤ)))
        (if some (p.Z : ℤ) ∈ d.map Prod.fst then d else d ++ [(some (p.Z : ℤ), some p.X)]) := by
  obtain ⟨h1, h2, h3, h4, h5, h6⟩ := hp
  rw [para_lines]
  simp only [List.cons_append, List.nil_append]
  obtain ⟨a1, a2⟩ := contains_z (digits_no_eq p.Z)
  rw [symbolLoop, a1, a2]
  simp only [if_true, readInt_line, bind, Except.bind, Bool.false_eq_true, if_false]
  obtain ⟨a1, a2, -⟩ := contains_x h3
  rw [symbolLoop, a1, a2]
  simp only [if_true, bind, Except.bind, Bool.false_eq_true, if_false, bound]
  have hrest : ∀ d : List (Option ℤ × Option Str),
      symbolLoop ((aPrefix ++ Nat.toDigits 10 p.A ++ ['\n']) ::
        (amuPrefix ++ p.amu.render ++ ['\n']) ::
        (abundancePrefix ++ p.comp.render ++ ['\n']) :: (p.rest.map (· ++ ['\n']) ++ rest))
        (some (some (p.Z : ℤ))) d = symbolLoop rest (some (some (p.Z : ℤ))) d := by
    intro d
    obtain ⟨a1, a2, -⟩ := contains_a (digits_no_eq p.A)
    rw [symbolLoop, a1, a2]
    simp only [bind, Except.bind, Bool.false_eq_true, if_false]
    obtain ⟨a1, a2, -⟩ := contains_amu (field_safe h4).2
    rw [symbolLoop, a1, a2]
    simp only [bind, Except.bind, Bool.false_eq_true, if_false]
    obtain ⟨a1, a2, -⟩ := contains_ab (field_safe h5).2
    rw [symbolLoop, a1, a2]
    simp only [bind, Except.bind, Bool.false_eq_true, if_false]
    exact symbolLoop_junks h6 _ _ _
  split_ifs with h
  · exact hrest d
  · rw [readStr_line _ _ h1]
    simp only
    rw [hrest, dictSet_new h]

theorem firstSymbol_cons {p : Para} {ps : List Para} {z : Option ℤ} {X : Option Str} :
    FirstSymbol (p :: ps) z X ↔ (z = some (p.Z : ℤ) ∧ X = some p.X) ∨
      (z ≠ some (p.Z : ℤ) ∧ FirstSymbol ps z X) := by
  constructor
  · rintro ⟨pre, q, post, h, hq, rfl, rfl⟩
    cases pre with
    | nil =>
      obtain ⟨rfl, -⟩ := List.cons.inj h
      exact .inl ⟨rfl, rfl⟩
    | cons r pre =>
      obtain ⟨rfl, h2⟩ := List.cons.inj h
      refine .inr ⟨?_, pre, q, post, h2, fun s hs => hq s (by simp [hs]), rfl, rfl⟩
      have := hq p (by simp)
      intro h
      exact this (by simpa using h.symm)
  · rintro (⟨rfl, rfl⟩ | ⟨hne, pre, q, post, rfl, hq, rfl, rfl⟩)
    · exact ⟨[], p, ps, rfl, by simp, rfl, rfl⟩
    · refine ⟨p :: pre, q, post, rfl, fun s hs => ?_, rfl, rfl⟩
      rcases List.mem_cons.1 hs with rfl | hs
      · intro h
        exact hne (by rw [h])
      · exact hq s hs

theorem symbolLoop_paras {ps : List Para} (hp : ∀ p ∈ ps, p.Valid) (Z : Option (Option ℤ))
    (d : List (Option ℤ × Option Str)) (hd : (d.map Prod.fst).Nodup) {tail : Str} (ht : Junk tail) :
    ∃ d', symbolLoop ((ps.flatMap Para.lines).map (· ++ ['\n']) ++ lines tail) Z d = .ok d' ∧
      (d'.map Prod.fst).Nodup ∧
      ∀ z X, (z, X) ∈ d' ↔ (z, X) ∈ d ∨ (z ∉ d.map Prod.fst ∧ FirstSymbol ps z X) := by
  induction ps generalizing Z d with
  | nil =>
    refine ⟨d, ?_, hd, fun z X => ?_⟩
    · by_cases h : tail = []
      · subst h; rfl
      · rw [lines_end ht.1 h]
        have := symbolLoop_junk ht (nl := []) (.inl rfl) [] Z d
        simpa [symbolLoop] using this
    · constructor
      · exact .inl
      · rintro (h | ⟨-, pre, p, post, h, -⟩)
        · exact h
        · simp at h
  | cons p ps ih =>
    rw [List.flatMap_cons, List.map_append, List.append_assoc, symbolLoop_para (hp p (by simp))]
    have ih := ih fun q hq => hp q (by simp [hq])
    by_cases h : some (p.Z : ℤ) ∈ d.map Prod.fst
    · rw [if_pos h]
      obtain ⟨d', h1, h2, h3⟩ := ih (some (some (p.Z : ℤ))) d hd
      refine ⟨d', h1, h2, fun z X => ?_⟩
      rw [h3, firstSymbol_cons]
      constructor
      · rintro (h4 | ⟨h4, h5⟩)
        · exact .inl h4
        · refine .inr ⟨h4, .inr ⟨?_, h5⟩⟩
          rintro rfl
          exact h4 h
      · rintro (h4 | ⟨h4, ⟨rfl, -⟩ | ⟨-, h5⟩⟩)
        · exact .inl h4
        · exact absurd h h4
        · exact .inr ⟨h4, h5⟩
    · rw [if_neg h]
      obtain ⟨d', h1, h2, h3⟩ := ih (some (some (p.Z : ℤ))) (d ++ [(some (p.Z : ℤ), some p.X)]) (by
        rw [List.map_append, List.nodup_append]
        refine ⟨hd, by simp, fun a ha b hb => ?_⟩
        simp only [List.map_cons, List.map_nil, List.mem_singleton] at hb
        subst hb
        rintro rfl
        exact h ha)
      refine ⟨d', h1, h2, fun z X => ?_⟩
      rw [h3, firstSymbol_cons]
      simp only [List.mem_append, List.mem_singleton, Prod.mk.injEq, List.map_append, List.map_cons,
        List.map_nil, not_or]
      constructor
      · rintro ((h4 | ⟨rfl, rfl⟩) | ⟨⟨h4, h5⟩, h6⟩)
        · exact .inl h4
        · exact .inr ⟨h, .inl ⟨rfl, rfl⟩⟩
        · exact .inr ⟨h4, .inr ⟨h5, h6⟩⟩
      · rintro (h4 | ⟨h4, ⟨rfl, rfl⟩ | ⟨h5, h6⟩⟩)
        · exact .inl (.inl h4)
        · exact .inl (.inr ⟨rfl, rfl⟩)
        · exact .inr ⟨⟨h4, h5⟩, h6⟩

theorem readSymbols_file {f : NistFile} (hf : f.Valid) :
    ∃ d, readSymbols f.render = .ok d ∧ (d.map Prod.fst).Nodup ∧
      ∀ z X, (z, X) ∈ d ↔ FirstSymbol f.paras z X := by
  obtain ⟨d, h1, h2, h3⟩ := symbolLoop_paras hf.2.1 none [] (by simp) hf.2.2
  refine ⟨d, ?_, h2, fun z X => by simpa using h3 z X⟩
  rw [readSymbols, nist_lines hf, List.map_append, List.append_assoc, symbolLoop_junks hf.1, h1]

/-! ## Dictionaries -/

theorem dictGet_eq {κ α : Type} [DecidableEq κ] {d : List (κ × α)} (hd : (d.map Prod.fst).Nodup)
    {k : κ} {v : α} (h : (k, v) ∈ d) : dictGet k d = .ok v := by
  induction d with
  | nil => simp at h
  | cons p d ih =>
    rw [List.map_cons, List.nodup_cons] at hd
    rw [dictGet]
    rcases List.mem_cons.1 h with rfl | h
    · rw [if_pos rfl]
    · rw [if_neg, ih hd.2 h]
      intro he
      exact hd.1 (List.mem_map.2 ⟨(k, v), h, he.symm⟩)

theorem dictGet_missing {κ α : Type} [DecidableEq κ] {d : List (κ × α)} {k : κ}
    (h : k ∉ d.map Prod.fst) : dictGet k d = .error .keyError := by
  induction d with
  | nil => rfl
  | cons p d ih =>
    rw [List.map_cons, List.mem_cons, not_or] at h
    rw [dictGet, if_neg (fun he => h.1 he.symm), ih h.2]

end Ries
