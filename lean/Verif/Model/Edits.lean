import Verif.Model.Elements
import Verif.Model.Resonance

/-!
# Attributes that are changed after construction

Python attributes can be assigned at any time. Some classes compute further attributes in `__init__` and use these later; the models in
the other files compute everything from the constructor arguments. Here the objects have all their attributes, and edits are programs.
-/

namespace Ries

/-! ## Compton scattering -/

/-- a `KleinNishina` object with its three attributes, `ries/nonresonant/klein_nishina.py:112-119` -/
structure KNObj where
  Z : ℝ
  mc2 : ℝ
  scaleFactor : ℝ

/-- assignments `kn.Z = z`, `kn.mc2 = m` -/
inductive KNEdit
  | setZ (z : ℝ)
  | setMc2 (m : ℝ)

namespace KNObj

variable (k : PhysConst) (o : KNObj)

/-- `__init__`, l.102-119 -/
noncomputable def new (Z mc2 : ℝ) : Except Err KNObj :=
  if mc2 * mc2 = 0 then .error .zeroDivision
  else .ok ⟨Z, mc2, Z * k.alpha ^ 2 * k.hbarc ^ 2 / (mc2 * mc2)⟩

/-- an assignment changes the attribute and nothing else -/
def edit (o : KNObj) : KNEdit → KNObj
  | .setZ z => { o with Z := z }
  | .setMc2 m => { o with mc2 := m }

/-- several assignments -/
def edits (o : KNObj) (es : List KNEdit) : KNObj := es.foldl edit o

/-- `cs_diff_dOmega`, l.198-222 -/
noncomputable def dOmega (E θ φ : ℝ) : ℝ :=
  let r := KN.EpOverE k E θ
  0.5 * o.scaleFactor * r * r * (r + 1 / r - 2 * Real.sin θ ^ 2 * Real.cos φ ^ 2)

/-- `cs_diff_dOmega_unpolarized`, l.224-248 -/
noncomputable def dOmegaUnpol (E θ : ℝ) : ℝ :=
  let r := KN.EpOverE k E θ
  Real.pi * o.scaleFactor * r * r * (r + 1 / r - Real.sin θ ^ 2)

/-- `cs_total` and `__call__`, l.121-134, 302-322, for a positive energy -/
noncomputable def total (E : ℝ) : ℝ :=
  let x := E / o.mc2
  Real.pi * o.scaleFactor * x ^ (-3 : ℤ) *
    ((2 * x * (2 + x * (1 + x) * (8 + x))) / ((1 + 2 * x) ^ 2)
      + ((x - 2) * x - 2) * Real.log (1 + 2 * x))

end KNObj

/-! ## Thermal motion and recoil -/

/-- a `MaxwellBoltzmann` object, `ries/resonance/maxwell_boltzmann.py:49-59` -/
structure MBObj where
  amu : ℝ
  temperature : ℝ

/-- assignments of its attributes -/
inductive MBEdit
  | setAmu (a : ℝ)
  | setTemperature (t : ℝ)

namespace MBObj

/-- an assignment -/
def edit (o : MBObj) : MBEdit → MBObj
  | .setAmu a => { o with amu := a }
  | .setTemperature t => { o with temperature := t }

/-- several assignments -/
def edits (o : MBObj) (es : List MBEdit) : MBObj := es.foldl edit o

/-- `get_doppler_width(E)`, l.61-85, reads the attributes -/
noncomputable def width (k : PhysConst) (o : MBObj) (E : ℝ) : Except Err ℝ := getDopplerWidth k o.amu o.temperature E

end MBObj

/-! ## Elements -/

/-- an `Element` object: references to the two dictionaries that were passed, and the mass computed from them,
`ries/constituents/element.py:83-88` -/
structure ElemObj where
  abundances : ℕ
  isotopes : ℕ
  amu : ℝ

/-- dictionaries of abundances and of isotopes (their masses), by reference -/
structure ElemWorld where
  ab : ℕ → List (String × ℝ)
  iso : ℕ → List (String × Option ℝ)

/-- `element.abundances[name] = x`, `element.isotopes[name] = isotope` -/
inductive ElemEdit
  | setAbundance (d : ℕ) (name : String) (x : ℝ)
  | setIsotope (d : ℕ) (name : String) (m : ℝ)

namespace ElemWorld

/-- an assignment -/
def edit (W : ElemWorld) : ElemEdit → ElemWorld
  | .setAbundance d n x => { W with ab := Function.update W.ab d (dictSet (W.ab d) n x) }
  | .setIsotope d n m => { W with iso := Function.update W.iso d (dictSet (W.iso d) n (some m)) }

/-- several assignments -/
def edits (W : ElemWorld) (es : List ElemEdit) : ElemWorld := es.foldl edit W

/-- `Element(Z, X, isotopes, abundances)` -/
noncomputable def new (W : ElemWorld) (ab iso : ℕ) : Except Err ElemObj := do
  let m ← amuFromComposition (W.ab ab) (W.iso iso)
  .ok ⟨ab, iso, m⟩

end ElemWorld

/-! ## Excited states -/

/-- the two related attributes of a `State` object, `ries/constituents/state.py:112-113` -/
structure EditedState where
  partialWidths : List (String × ℝ)
  width : ℝ

namespace EditedState

/-- `State(…, partial_widths)`, l.94-113 -/
noncomputable def new (pw : List (String × ℝ)) : EditedState := ⟨pw, (pw.map Prod.snd).sum⟩

/-- `state.partial_widths[J_pi] = x` -/
def edit (o : EditedState) (e : String × ℝ) : EditedState := { o with partialWidths := dictSet o.partialWidths e.1 e.2 }

/-- several assignments -/
def edits (o : EditedState) (es : List (String × ℝ)) : EditedState := es.foldl edit o

/-- the branching ratio of a resonance that is constructed with this intermediate state and a final state called `f`,
`ries/resonance/resonance.py:377-387` -/
noncomputable def ratio (o : EditedState) (f : String) : Except Err ℝ := do
  let g ← dictGet f o.partialWidths
  fdiv g o.width

end EditedState

end Ries
