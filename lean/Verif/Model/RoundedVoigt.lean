import Verif.Model.RoundedPVIntegral

/-! # Voigt resonances with a computed distribution -/

namespace Ries

/-- `SemiPseudoVoigtDistribution`, `ries/resonance/voigt.py:104-128`, in floating point: the density is the computed
`voigt_profile(E - self.resonance_energy, self.sigma, self.gamma)` (l.128), `vc`; everything else is inherited from the
pseudo-Voigt distribution, whose search for quantiles evaluates its own density `pc` (`ries/resonance/pseudo_voigt.py:224-236`). -/
noncomputable def PV.semiComputed (fl Fc pc vc : ℝ → ℝ) (mix : ℝ → Fl) (er : ℝ) : Dist where
  pdf ps x := if ps = [] then .ok (.fin (vc x)) else .error .typeError
  cdf := (PV.computed fl Fc pc mix er).cdf
  ppf := (PV.computed fl Fc pc mix er).ppf

/-- the Voigt resonance (`ries/resonance/voigt.py:129-168`) with the computed distribution -/
noncomputable def Reso.semiComputed (r : Reso) (fl Fc pc vc : ℝ → ℝ) (mix : ℝ → Fl) : Reso :=
  { r with dist := PV.semiComputed fl Fc pc vc mix r.er, params := [] }

end Ries
