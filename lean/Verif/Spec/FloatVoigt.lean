import Verif.Spec.FloatSearch
import Verif.Spec.Resonance

/-! # Specification: Voigt resonances with a computed distribution -/

namespace Ries

/-- `r` is a Voigt resonance, `rp` the pseudo-Voigt resonance constructed from the same arguments, `w` and `d` are its natural and its
Doppler width. The floating-point program finds quantiles with the distribution of `rp` (see `FloatReso`) and computes the density of
`r` with the relative error `η` as far from the resonance as the search can get. -/
structure FloatVoigt (r rp : Reso) (w d : ℝ) (fl Fc pc vc F p : ℝ → ℝ) (u η ε : ℝ) : Prop where
  shapes : ∃ k init inter amu T final, mkVoigt k init inter amu T final = .ok r ∧ mkPseudoVoigt k init inter amu T final = .ok rp ∧
    0 < amu ∧ 0 ≤ T ∧ init.exc < inter.exc ∧ inter.width = .ok w ∧ getDopplerWidth k amu T r.er = .ok d
  float : FloatReso rp w d fl Fc pc F p u η ε
  natural : 0 < w
  doppler : 0 < d
  value : ∀ x y, r.dist.pdf r.params x = .ok (.fin y) → |x - r.er| ≤ (2 * Real.sqrt (Real.log 2) * d + w) / ε → |vc x - y| ≤ η * y

end Ries
