import Verif.Model.ConfusionMetrics
import Verif.Py.RealFloat

/-!
# Area under the precision recall curve

`AUC._metric_value` (metrics/confusion_matrix_metrics.py 556–612) for the precision recall curve with the summation method
interpolation.  Real numbers without rounding.  For the methods minoring and majoring see `aucPrBounds`.
-/

namespace TFMA
namespace Bcm

/-- confusion_matrix_metrics.py 572–585: the increment for two neighbouring thresholds, `a` at the lower one.  The logarithm is
that of a positive number. -/
noncomputable def prIncrement (a b : Matrix) : Rl :=
  let dtp : ℝ := a.tp - b.tp
  let p0 : ℝ := a.tp + a.fp
  let p1 : ℝ := b.tp + b.fp
  let dp := p0 - p1
  let slope := Rl.div (.fin dtp) (.fin (max dp 0))
  let intercept := Rl.sub (.fin (b.tp : ℝ)) (Rl.mul slope (.fin p1))
  let ratio := if 0 < p0 ∧ 0 < p1 then p0 / max p1 0 else 1
  Rl.div (Rl.mul slope (Rl.add (.fin dtp) (Rl.mul intercept (.fin (Real.log ratio))))) (.fin (max ((b.tp : ℝ) + b.fn) 0))

/-- confusion_matrix_metrics.py 568–586. -/
noncomputable def aucPrInterpolation (ms : List MRow) : Rl :=
  Rl.nansum (List.zipWith (fun a b => prIncrement a.2 b.2) ms.dropLast ms.tail)

end Bcm
end TFMA
