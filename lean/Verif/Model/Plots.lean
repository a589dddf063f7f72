import Verif.Model.ConfusionMatrices
import Verif.Model.Inputs

/-!
# Plots over thresholds

metrics/confusion_matrix_plot.py, metrics/score_distribution_plot.py, metrics/calibration_plot.py and the conversion of
matrices in metrics/binary_confusion_matrices.py 153–200.
-/

namespace TFMA
namespace Plots

open Beam

/-! ### Matrices as a plot -/

/-- `round(x)` to the nearest integer, halves to the even neighbour. (python builtin) -/
def roundEven (x : ℚ) : ℤ :=
  if x - ⌊x⌋ < 1 / 2 then ⌊x⌋ else if 1 / 2 < x - ⌊x⌋ then ⌊x⌋ + 1 else if ⌊x⌋ % 2 = 0 then ⌊x⌋ else ⌊x⌋ + 1

/-- `round(x, 6)`; infinities and NaN stay.  (python builtin; the result is the exact decimal, the nearest double to it in
python) -/
def round6 : Fl → Fl
  | .fin x => .fin (roundEven (x * 1000000) / 1000000)
  | x => x

/-- One `ConfusionMatrixAtThreshold` message. (binary_confusion_matrices.py 184–197) -/
structure PlotRow where
  threshold : Fl
  tp : ℚ
  fp : ℚ
  tn : ℚ
  fn : ℚ
  precision : Fl
  recall : Fl
  falsePositiveRate : Fl
  falseOmissionRate : Fl
  f1 : Fl
  accuracy : Fl
  deriving DecidableEq, Repr

/-- `np.divide(a, b, out=default, where=b > 0)` for one entry. (binary_confusion_matrices.py 168–179) -/
def divideOr (default a b : ℚ) : Fl := if 0 < b then Fl.div (.fin a) (.fin b) else .fin default

/-- One threshold of binary_confusion_matrices.py 153–200 `Matrices.to_proto`.  The float fields of the message hold the
values exactly. -/
def plotRow (r : Bcm.MRow) : PlotRow :=
  let m := r.2
  let precision := divideOr 1 m.tp (m.tp + m.fp)
  let recall := divideOr 0 m.tp (m.tp + m.fn)
  { threshold := round6 r.1
    tp := m.tp, fp := m.fp, tn := m.tn, fn := m.fn
    precision := precision
    recall := recall
    falsePositiveRate := Fl.div (.fin m.fp) (.fin (m.tn + m.fp))
    falseOmissionRate := Fl.div (.fin m.fn) (.fin (m.tn + m.fn))
    f1 := Fl.div (Fl.mul (Fl.mul (.fin 2) precision) recall) (Fl.add precision recall)
    accuracy := Fl.div (.fin (m.tp + m.tn)) (.fin (m.tp + m.tn + m.fp + m.fn)) }

/-- binary_confusion_matrices.py 153–200 `Matrices.to_proto`. -/
def toProto (rows : List Bcm.MRow) : List PlotRow := rows.map plotRow

/-- The thresholds of both plots: confusion_matrix_plot.py 82–85, score_distribution_plot.py 93–96.  With
`num_thresholds=0` the division raises ZeroDivisionError. -/
def plotThresholds (n : ℕ) : Except Err (List Fl) :=
  if n = 0 then .error .zeroDivisionError
  else .ok (.fin (-1 / 1000000) :: (List.range (n + 1)).map fun (i : ℕ) => Fl.fin ((i : ℚ) / n))

/-! ### Confusion matrix plot -/

/-- The loop of binary_confusion_matrices.py 185–197 indexes the four lists by the position of the threshold; IndexError when
one of them is shorter. -/
def rowsOf : List Fl → List ℚ → List ℚ → List ℚ → List ℚ → Except Err (List Bcm.MRow)
  | [], _, _, _, _ => .ok []
  | t :: ts, a :: tp, b :: fp, c :: tn, d :: fn => do
    return (t, ⟨a, c, b, d⟩) :: (← rowsOf ts tp fp tn fn)
  | _, _, _, _, _ => .error .indexError

/-- confusion_matrix_plot.py 53–121 without sub keys and preprocessors, on the values seen by the histogram's combiner (the
histogram has the default 10000 buckets over [0, 1], binary_confusion_matrices.py 356–377). -/
def confusionPlot (n : ℕ) (s : Sched (Except Err (List Histogram.HExample))) : Except Err (List PlotRow) := do
  let ts ← plotThresholds n
  let a ← (Histogram.combiner ⟨10000, 0, 1, true⟩).run s
  let c ← Bcm.histogramResult ts (Histogram.extract a)
  let rows ← rowsOf ts c.tp c.fp c.tn c.fn
  return toProto rows

/-! ### Score distribution plot -/

/-- What score_distribution_plot.py 60–69 makes `to_label_prediction_example_weight` yield for one score: the score is also
the label, which is then split (metric_util.py 785–790; the loop of binary_confusion_matrices.py 634–656). -/
def scoreRows (x : ℚ × ℚ) : Except Err (List Bcm.Row) := do
  let items ← Inputs.fractionalLabels ⟨Inputs.one x.1, Inputs.one (.fin x.1), Inputs.one x.2⟩
  return items.map fun i => ⟨.fin (i.label.data.headD 0), i.prediction.data.headD .nan, i.weight.data.headD 0⟩

/-- The rows of one example with several scores (a list of score and weight). (score_distribution_plot.py 60–69) -/
def scoreExample (xs : List (ℚ × ℚ)) : Except Err Bcm.Example := do
  let rows ← Inputs.mapE scoreRows xs
  return ⟨rows.flatten, none⟩

/-- The loop of score_distribution_plot.py 138–144. -/
def collapse (r : PlotRow) : PlotRow :=
  { r with tn := r.tn + r.fn, fn := 0, tp := r.tp + r.fp, fp := 0, precision := .fin 0, recall := .fin 0 }

/-- score_distribution_plot.py 72–150 on the rows seen by its combiner (the results of `scoreExample`), in the order and
bundling of the schedule. -/
def scoreDistribution (n : ℕ) (s : Sched (Except Err Bcm.Example)) : Except Err (List PlotRow) := do
  let ts ← plotThresholds n
  let c : Bcm.Config := ⟨ts, 0, true⟩
  let a ← (Bcm.combiner c).run s
  let rows ← Bcm.toMatrices (Bcm.extract c a) ts
  return (toProto (rows.map Prod.fst)).map collapse

/-! ### Calibration plot -/

/-- What calibration_plot.py 67–103 reads of a feature of the schema. -/
structure Feature where
  name : String
  intDomain : Option (Option ℚ × Option ℚ)
  floatDomain : Option (Option ℚ × Option ℚ)

/-- calibration_plot.py 78–103, from the label key (None when there is no model spec or no label key). -/
def findLabelDomain (schema : List Feature) (labelKey : Option String) : Option ℚ × Option ℚ :=
  match labelKey with
  | none => (none, none)
  | some k => match schema.find? fun f => f.name == k with
    | none => (none, none)
    | some f => match f.intDomain, f.floatDomain with
      | some d, _ => d
      | none, some d => d
      | none, none => (none, none)

/-- calibration_plot.py 129–137; `schema` is None when the schema or the config is missing (an empty schema, which is also
false in python only if None, has no features). -/
def plotBounds (left right : Option ℚ) (schema : Option (List Feature)) (labelKey : Option String) : ℚ × ℚ :=
  let d := match schema with
    | some s => if left.isNone || right.isNone then findLabelDomain s labelKey else (none, none)
    | none => (none, none)
  (left.getD (d.1.getD 0), right.getD (d.2.getD 1))

/-- calibration_plot.py 161–164.  With `num_buckets=0` the division raises ZeroDivisionError. -/
def calibrationThresholds (n : ℕ) (left right : ℚ) : Except Err (List Fl) :=
  if n = 0 then .error .zeroDivisionError
  else .ok (.ninf :: (List.range (n + 1)).map fun (i : ℕ) => Fl.fin (left + i * (right - left) / n))

/-- A `CalibrationHistogramBuckets.Bucket`. (calibration_plot.py 196–202) -/
structure PlotBucket where
  lower : Fl
  upper : Fl
  labels : ℚ
  predictions : Fl
  examples : ℚ
  deriving DecidableEq, Repr

/-- calibration_plot.py 187–202: `rest` is `thresholds[i + 1:]`. -/
def toBuckets (lower : Fl) : List Fl → List Histogram.Bucket → List PlotBucket
  | _, [] => []
  | rest, b :: bs =>
    let upper := rest.headD .pinf
    ⟨lower, upper, b.labels, b.predictions, b.examples⟩ :: toBuckets upper rest.tail bs

/-- `DEFAULT_NUM_BUCKETS` of calibration_histogram.py 27. -/
def sourceBuckets : ℕ := 10000

/-- calibration_plot.py 106–202 for given bounds, on the values seen by the histogram's combiner. -/
def calibrationPlot (n : ℕ) (left right : ℚ) (s : Sched (Except Err (List Histogram.HExample))) :
    Except Err (List PlotBucket) := do
  let a ← (Histogram.combiner ⟨sourceBuckets, left, right, true⟩).run s
  let ts ← calibrationThresholds n left right
  return toBuckets .ninf (ts.drop 1) (Histogram.rebin ts sourceBuckets left right (Histogram.extract a))

end Plots
end TFMA
