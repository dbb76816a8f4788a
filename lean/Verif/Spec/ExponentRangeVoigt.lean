import Verif.Spec.ExponentRange
import Verif.Spec.RoundedVoigtValue

open MeasureTheory

namespace Ries

/-- As `VoigtAccurate`, but nothing is known of the routine if an argument is not zero and not between `2⁻²⁰⁰` and `2²⁰⁰` in absolute value. -/
def VoigtAccurateInRange (v : ℝ) (vp : ℝ → ℝ → ℝ → ℝ) : Prop := ∀ x s g, Mag (-200) 200 x → Mag (-200) 200 s → Mag (-200) 200 g → 0 ≤ s → 0 < g →
  |vp x s g - ∫ t, normPdf 0 1 t * cauchyPdf 0 g (x - s * t)| ≤ v * ∫ t, normPdf 0 1 t * cauchyPdf 0 g (x - s * t)

end Ries
