import Verif.Model.ConfusionMatrices
import Mathlib.Analysis.Real.Sqrt

/-!
# Metrics derived from binary confusion matrices

metrics/confusion_matrix_metrics.py; line numbers without file refer to it.  The cells are exact rationals: they are python floats
(`safe_to_scalar` returns `.item()`), so a division `/` of two cells raises ZeroDivisionError for a zero denominator, while the
metrics that first convert the lists to numpy arrays get NaN or an infinity.  Metrics with a square root or a logarithm have real
values.
-/

namespace TFMA
namespace Bcm

/-! ### One matrix -/

/-- 89–91 `_divide_only_positive_denominator`. -/
def ratio (n d : ℚ) : Fl := if 0 < d then .fin (n / d) else .nan

/-- 1119–1121. -/
def truePositives (m : Matrix) : ℚ := m.tp
/-- 1194–1196. -/
def trueNegatives (m : Matrix) : ℚ := m.tn
/-- 1269–1271. -/
def falsePositives (m : Matrix) : ℚ := m.fp
/-- 1344–1346. -/
def falseNegatives (m : Matrix) : ℚ := m.fn

/-- 1418–1419 (`binary_accuracy`). -/
def binaryAccuracy (m : Matrix) : Fl := ratio (m.tp + m.tn) (m.tp + m.fp + m.tn + m.fn)

/-- 1475–1477 (`precision`, `ppv`). -/
def precision (m : Matrix) : Fl := ratio m.tp (m.tp + m.fp)

/-- 1555–1557 (`recall`, `tpr`). -/
def recall (m : Matrix) : Fl := ratio m.tp (m.tp + m.fn)

/-- 1621–1623 (`specificity`, `tnr`). -/
def specificity (m : Matrix) : Fl := ratio m.tn (m.tn + m.fp)

/-- 1686–1688 (`fall_out`, `fpr`). -/
def fallOut (m : Matrix) : Fl := ratio m.fp (m.fp + m.tn)

/-- 1751–1753 (`miss_rate`, `fnr`). -/
def missRate (m : Matrix) : Fl := ratio m.fn (m.fn + m.tp)

/-- 1816–1818 (`negative_predictive_value`, `npv`). -/
def npv (m : Matrix) : Fl := ratio m.tn (m.tn + m.fn)

/-- 1881–1883. -/
def falseDiscoveryRate (m : Matrix) : Fl := ratio m.fp (m.fp + m.tp)

/-- 1924–1926. -/
def falseOmissionRate (m : Matrix) : Fl := ratio m.fn (m.fn + m.tn)

/-- 1967–1968. -/
def prevalence (m : Matrix) : Fl := ratio (m.tp + m.fn) (m.tp + m.tn + m.fp + m.fn)

/-- 2058–2060. -/
def threatScore (m : Matrix) : Fl := ratio m.tp (m.tp + m.fn + m.fp)

/-- 2534–2537. -/
def predictedPositiveRate (m : Matrix) : Fl := ratio (m.tp + m.fp) (m.tp + m.fp + m.tn + m.fn)

/-- 2150–2157. -/
def f1Score (m : Matrix) : Fl := ratio (2 * m.tp) (2 * m.tp + m.fp + m.fn)

/-- 2101–2109. -/
def balancedAccuracy (m : Matrix) : Fl :=
  if 0 < m.tp + m.fn ∧ 0 < m.tn + m.fp then .fin ((m.tp / (m.tp + m.fn) + m.tn / (m.tn + m.fp)) / 2) else .nan

/-- 2293–2301. -/
def informedness (m : Matrix) : Fl :=
  if 0 < m.tp + m.fn ∧ 0 < m.tn + m.fp then .fin (m.tp / (m.tp + m.fn) + m.tn / (m.tn + m.fp) - 1) else .nan

/-- 2342–2350. -/
def markedness (m : Matrix) : Fl :=
  if 0 < m.tp + m.fp ∧ 0 < m.tn + m.fn then .fin (m.tp / (m.tp + m.fp) + m.tn / (m.tn + m.fn) - 1) else .nan

/-- 2391–2399. -/
def positiveLikelihoodRatio (m : Matrix) : Fl :=
  if 0 < m.tp + m.fn ∧ 0 < m.fp + m.tn ∧ 0 < m.fp then .fin (m.tp / (m.tp + m.fn) / (m.fp / (m.fp + m.tn))) else .nan

/-- 2440–2448. -/
def negativeLikelihoodRatio (m : Matrix) : Fl :=
  if 0 < m.fn + m.tp ∧ 0 < m.tn + m.fp ∧ 0 < m.tn then .fin (m.fn / (m.fn + m.tp) / (m.tn / (m.tn + m.fp))) else .nan

/-- 2489–2493. -/
def diagnosticOddsRatio (m : Matrix) : Fl :=
  if 0 < m.fn ∧ 0 < m.fp ∧ 0 < m.tn then .fin (m.tp / m.fn / (m.fp / m.tn)) else .nan

/-- 94–98 `_pos_sqrt`. -/
noncomputable def posSqrt (x : ℝ) : Except Err ℝ := if x < 0 then .error .valueError else .ok (Real.sqrt x)

/-- 2009–2017: `none` is NaN; the last division is one of python floats. -/
noncomputable def prevalenceThreshold (m : Matrix) : Except Err (Option ℝ) :=
  if 0 < m.tp + m.fn ∧ 0 < m.tn + m.fp then do
    let tpr : ℝ := (m.tp / (m.tp + m.fn) : ℚ)
    let tnr : ℝ := (m.tn / (m.tn + m.fp) : ℚ)
    let s ← posSqrt (tpr * (1 - tnr))
    if tpr + tnr - 1 = 0 then .error .zeroDivisionError else .ok (some ((s + tnr - 1) / (tpr + tnr - 1)))
  else .ok none

/-- 2198–2202: `none` is NaN. -/
noncomputable def matthews (m : Matrix) : Except Err (Option ℝ) := do
  let d ← posSqrt (((m.tp + m.fp) * (m.tp + m.fn) * (m.tn + m.fp) * (m.tn + m.fn) : ℚ))
  if 0 < d then .ok (some (((m.tp * m.tn - m.fp * m.fn : ℚ) : ℝ) / d)) else .ok none

/-- 2243–2252: `none` is NaN (the variable called tnr is the recall). -/
noncomputable def fowlkesMallows (m : Matrix) : Except Err (Option ℝ) :=
  if 0 < m.tp + m.fp ∧ 0 < m.tp + m.fn then do
    let s ← posSqrt ((m.tp / (m.tp + m.fp) * (m.tp / (m.tp + m.fn)) : ℚ))
    return some s
  else .ok none

/-! ### All thresholds -/

/-- A python float or a numpy array. (435–457) -/
inductive Value (α : Type) where
  | scalar (a : α)
  | array (l : List α)
  deriving DecidableEq, Repr

/-- 435–457 `ConfusionMatrixMetric._metric_value`: one value per threshold, a scalar if there is one threshold.  Where `f` can raise,
the exception of the first such threshold is raised. -/
def metricValue {α : Type} (f : Matrix → α) (ms : List MRow) : Value α :=
  match ms with
  | [x] => .scalar (f x.2)
  | _ => .array (ms.map fun x => f x.2)

/-! ### Values under a constraint -/

/-- `np.nanmax` of a non-empty array: NaN entries are ignored, NaN if there is nothing else. (numpy, used in 210) -/
def nanmax : List Fl → Fl
  | [] => .nan
  | x :: xs =>
    let y := nanmax xs
    if x = .nan then y else if y = .nan then x else if Fl.le x y then y else x

/-- 201–215, one value of the constraint; `op` is `np.greater_equal` or `np.less_equal`, false for NaN. -/
def findMaxUnder (op : Fl → Fl → Bool) (constrained dependent : List Fl) (value : Fl) : Fl :=
  let gathered := ((constrained.zip dependent).filter fun p => op p.1 value).map Prod.snd
  if gathered = [] then .fin 0 else nanmax gathered

/-- `np.greater_equal`. (numpy, used in 176) -/
def greaterEqual (a b : Fl) : Bool := Fl.le b a

/-- Elementwise `a / (a + b)` on numpy arrays of cells. (750–753, 824–826, 904–906, 981–983, 1058–1061, 2996–2998) -/
def share (a b : Matrix → ℚ) (ms : List MRow) : List Fl := ms.map fun x => Fl.div (.fin (a x.2)) (.fin (a x.2 + b x.2))

/-- 742–753 `SensitivityAtSpecificity._metric_value` for one value. -/
def sensitivityAtSpecificity (v : Fl) (ms : List MRow) : Fl :=
  findMaxUnder greaterEqual (share Matrix.tn Matrix.fp ms) (share Matrix.tp Matrix.fn ms) v

/-- 816–827 `SpecificityAtSensitivity._metric_value`. -/
def specificityAtSensitivity (v : Fl) (ms : List MRow) : Fl :=
  findMaxUnder greaterEqual (share Matrix.tp Matrix.fn ms) (share Matrix.tn Matrix.fp ms) v

/-- 897–907 `PrecisionAtRecall._metric_value`. -/
def precisionAtRecall (v : Fl) (ms : List MRow) : Fl :=
  findMaxUnder greaterEqual (share Matrix.tp Matrix.fn ms) (share Matrix.tp Matrix.fp ms) v

/-- 973–984 `RecallAtPrecision._metric_value`. -/
def recallAtPrecision (v : Fl) (ms : List MRow) : Fl :=
  findMaxUnder greaterEqual (share Matrix.tp Matrix.fp ms) (share Matrix.tp Matrix.fn ms) v

/-- 1050–1066 `RecallAtFalsePositiveRate._metric_value`. -/
def recallAtFalsePositiveRate (v : Fl) (ms : List MRow) : Fl :=
  findMaxUnder Fl.le (share Matrix.fp Matrix.tn ms) (share Matrix.tp Matrix.fn ms) v

/-- 2989–3000 `ThresholdAtRecall._metric_value`. -/
def thresholdAtRecall (v : Fl) (ms : List MRow) : Fl :=
  findMaxUnder greaterEqual (share Matrix.tp Matrix.fn ms) (ms.map Prod.fst) v

/-! ### Areas -/

/-- 78–80 `AUCCurve`. -/
inductive Curve where
  | roc | pr
  deriving DecidableEq, Repr

/-- 83–86 `AUCSummationMethod`. -/
inductive Summation where
  | interpolation | majoring | minoring
  deriving DecidableEq, Repr

/-- `np.minimum`: NaN if one of the arguments is. (numpy, used in 607) -/
def npMin (a b : Fl) : Fl := if a = .nan then a else if b = .nan then b else if Fl.le a b then a else b
/-- `np.maximum`. (numpy, used in 609) -/
def npMax (a b : Fl) : Fl := if a = .nan then a else if b = .nan then b else if Fl.le a b then b else a

/-- `np.nansum`: NaN entries count as zero. (numpy, used in 586, 612) -/
def nansum (l : List Fl) : Fl := l.foldl (fun s x => if x = .nan then s else Fl.add s x) (.fin 0)

/-- 602–609: the height of one rectangle. -/
def height : Summation → Fl → Fl → Fl
  | .interpolation, a, b => Fl.div (Fl.add a b) (.fin 2)
  | .minoring, a, b => npMin a b
  | .majoring, a, b => npMax a b

/-- 612: `np.nansum((x[:n-1] - x[1:]) * heights)`. -/
def area (m : Summation) (x y : List Fl) : Fl :=
  nansum (List.zipWith Fl.mul (List.zipWith Fl.sub x.dropLast x.tail) (List.zipWith (height m) y.dropLast y.tail))

/-- The matrices of the histogram path as rows: 527–535 of binary_confusion_matrices.py build `Matrices` from the thresholds
and the four lists, which the metrics read by position. -/
def Cols.rows (ts : List Fl) (c : Cols) : List MRow :=
  (ts.zip (c.tp.zip (c.tn.zip (c.fp.zip c.fn)))).map fun x => (x.1, ⟨x.2.1, x.2.2.1, x.2.2.2.1, x.2.2.2.2⟩)

/-- 556–612 `AUC._metric_value` for the ROC curve. -/
def aucRoc (m : Summation) (ms : List MRow) : Fl :=
  area m (share Matrix.fp Matrix.tn ms) (share Matrix.tp Matrix.fn ms)

/-- 556–612 `AUC._metric_value` for the precision recall curve with the methods minoring and majoring (for the method
interpolation see `aucPrInterpolation` in Model/PrAuc). -/
def aucPrBounds (m : Summation) (ms : List MRow) : Fl :=
  area m (share Matrix.tp Matrix.fn ms) (share Matrix.tp Matrix.fp ms)

end Bcm
end TFMA
