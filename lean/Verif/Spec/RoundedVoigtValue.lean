import Verif.Spec.RoundedReso

open MeasureTheory

namespace Ries

/-- A routine for the convolution of a normal density with standard deviation `s` and a Cauchy density with scale `g`, with a relative error of
at most `v`. -/
def VoigtAccurate (v : ℝ) (vp : ℝ → ℝ → ℝ → ℝ) : Prop := ∀ x s g, 0 ≤ s → 0 < g →
  |vp x s g - ∫ t, normPdf 0 1 t * cauchyPdf 0 g (x - s * t)| ≤ v * ∫ t, normPdf 0 1 t * cauchyPdf 0 g (x - s * t)

end Ries
