import Verif.Model.Docs
import Verif.Validation

/-! # C123: the examples in the documentation work -/

namespace Ries

open Docs

set_option maxRecDepth 100000

/-- the shipped files -/
noncomputable def shippedFiles (mu : ℝ) : Files := ⟨shippedNist.render, shippedDensities.render, xrmacText, mu⟩

/-- C123 is false: the example for attenuation coefficients fails with an `ImportError`, with the shipped files and with all others for
which the module can be imported at all. -/
theorem C123_refuted : (∀ f : Files, (∃ st, importXrmac f.nist f.dens f.xrmac f.mu = .ok st) →
    run f [] xrmacExample = .error .importError) ∧ ∀ mu, run (shippedFiles mu) [] xrmacExample = .error .importError := by
  have key : ∀ f : Files, (∃ st, importXrmac f.nist f.dens f.xrmac f.mu = .ok st) → run f [] xrmacExample = .error .importError := by
    intro f hf
    obtain ⟨st, hst⟩ := hf
    cases h : naturalElements f.nist f.dens with
    | error e => simp [importXrmac, h, bind, Except.bind] at hst
    | ok p =>
      simp [run, xrmacExample, step, namesOf, h, hst, liftErr, bind, Except.bind]
  refine ⟨key, fun mu => key _ ?_⟩
  obtain ⟨st, h, -⟩ := C74_shipped mu
  exact ⟨st, h⟩

theorem docs_element {nist dens : Str} {x : ℕ → Str} {mu : ℝ} {syms : List (Option ℤ × Option Str)} {els : List (Str × ElementObj)} {el : ElementObj}
    (h1 : naturalElements nist dens = .ok (syms, els)) (h2 : dictGet "Pb".toList els = .ok el) (h3 : el.Z = 82) :
    run ⟨nist, dens, x, mu⟩ [] elementExample = .ok [.int 82] := by
  rw [show "Pb".toList = ['P', 'b'] from rfl] at h2
  simp [run, elementExample, step, namesOf, h1, liftErr, bind, Except.bind, Docs.name, h2, h3]

theorem docs_debye (f : Files) : run f [] debyeExample = .ok [.num (.fin 1362)] := by
  have h8 : lookupTD "B" = .ok (some 1362) := by decide +kernel
  simp [run, debyeExample, step, namesOf, h8, liftErr, bind, Except.bind, Docs.name]

theorem docs_xrmac {nist dens : Str} {x : ℕ → Str} {mu : ℝ} {st : ModState} {g : StoredXrmac} {v : Fl}
    (h1 : importXrmac nist dens x mu = .ok st) (h2 : dictGet "Pb".toList st.perGram = .ok g) (h3 : g.call 1 = .ok v) :
    run ⟨nist, dens, x, mu⟩ [] (.fromImport .xrmac "xrmac_cm2_per_g" :: xrmacExample.tail) = .ok [.num v] := by
  rw [show "Pb".toList = ['P', 'b'] from rfl] at h2
  cases h : naturalElements nist dens with
  | error e => simp [importXrmac, h, bind, Except.bind] at h1
  | ok p => simp [run, xrmacExample, step, namesOf, h, h1, liftErr, bind, Except.bind, Docs.name, h2, h3]

/-- C123, the part that holds: the examples for element data and Debye temperatures print the proton number of lead and the Debye
temperature of boron; and the example for attenuation coefficients prints the tabulated value if the name that it uses is imported.
Missing: see `C123_refuted`. -/
theorem C123_partial {mu : ℝ} (hmu : 0 < mu) :
    run (shippedFiles mu) [] elementExample = .ok [.int 82] ∧
    run (shippedFiles mu) [] debyeExample = .ok [.num (.fin 1362)] ∧
    run (shippedFiles mu) [] (.fromImport .xrmac "xrmac_cm2_per_g" :: xrmacExample.tail) = .ok [.num (.fin 7.102e-2)] := by
  obtain ⟨syms, els, h1, h2⟩ := shipped_loopInput
  obtain ⟨st, g, a, h3, h4, -, h5, -⟩ := Validation.pb_values hmu
  have h6 : dictGet "Pb".toList els = .ok (shippedElement 82) := by
    rw [← symbol82]
    exact h2.element 82 (by decide)
  exact ⟨docs_element h1 h6 rfl, docs_debye _, docs_xrmac h3 h4 h5⟩

example : (0 : ℝ) < 1.66053906660e-27 := by norm_num

end Ries
