import Verif.Model.MatrixSetup

/-!
# Keras metrics computed from confusion matrices

metrics/tf_metric_wrapper.py 110–131, 245–268 and 358–475, metrics/confusion_matrix_metrics.py 308–379 and 2776–2863.

The computations are those of Model/MatrixSetup.  What they do to the data is put together here from the combiners of
Model/Histogram and Model/ConfusionMatrices.
-/

namespace TFMA
namespace KerasMatrices

open Beam MetricKeys MatrixSetup

variable {V : Type}

/-- The Keras classes computed from matrices. (tf_metric_wrapper.py 216–230) -/
inductive Cls where
  | auc | specificityAtSensitivity | sensitivityAtSpecificity
  | truePositives | falsePositives | trueNegatives | falseNegatives
  | precision | recall
  deriving DecidableEq, Repr

/-- What the wrapper reads of a metric (tf_metric_wrapper.py 245–268, 376–431).  `configured` says that the configuration
of the metric has a value for its thresholds or its number of thresholds.  `thresholds` and `num` are the attributes.
The label weights are a list here (Keras keeps a tensor).  Metrics with `top_k` are computed by Keras (231), so there is
no such setting. -/
structure Metric where
  cls : Cls
  name : String
  classId : Option ℤ := none
  labelWeights : Option (List ℚ) := none
  multiLabel : Bool := false
  configured : Bool
  thresholds : Option (List Fl)
  num : Option ℤ := none

/-- The other arguments of tf_metric_wrapper.py 365–374. -/
structure Call where
  modelName : String := ""
  outputName : String := ""
  subKey : Option SubKey := none
  aggregationType : Option AggregationType := none
  classWeights : Option (Dict ℤ ℚ) := none
  exampleWeighted : Bool := false

/-- `{i: v for i, v in enumerate(metric.label_weights)}`. (tf_metric_wrapper.py 389) -/
def enumerated : ℕ → List ℚ → Dict ℤ ℚ
  | _, [] => []
  | i, w :: ws => ((i : ℤ), w) :: enumerated (i + 1) ws

/-- tf_metric_wrapper.py 378–391. -/
def classWeightsOf (c : Call) (m : Metric) : Except Err (Option (Dict ℤ ℚ)) :=
  if m.cls = .auc then
    match m.labelWeights with
    | some (w :: ws) =>
      if (keepWeights c.classWeights).isSome then .error .valueError
      else if m.multiLabel then .error .notImplementedError
      else .ok (some (enumerated 0 (w :: ws)))
    | _ => if m.multiLabel then .error .notImplementedError else .ok c.classWeights
  else .ok c.classWeights

/-- tf_metric_wrapper.py 245–268 `_verify_and_update_sub_key` for a metric without `top_k`. -/
def subKeyOf (sub : Option SubKey) (classId : Option ℤ) : Except Err (Option SubKey) :=
  match classId, sub with
  | some i, some s => if s.classId ≠ some i then .error .valueError else (SubKey.new (some i) none none).map some
  | some i, none => (SubKey.new (some i) none none).map some
  | none, sub => .ok sub

/-- tf_metric_wrapper.py 405–426. -/
def thresholdsOf (sub : Option SubKey) (m : Metric) : Option (List Fl) :=
  if (sub.bind SubKey.topK).isSome && !m.configured then some [.ninf] else m.thresholds

/-- tf_metric_wrapper.py 427–430. -/
def numOf (sub : Option SubKey) (m : Metric) : Option ℤ :=
  if (thresholdsOf sub m).isNone then m.num else none

/-- tf_metric_wrapper.py 365–475 `_wrap_confusion_matrix_metric`: the computations of the matrices and the key of the
metric. -/
def wrap (c : Call) (m : Metric) : Except Err (List Comp × MetricKey) := do
  let cw ← classWeightsOf c m
  let sub ← subKeyOf c.subKey m.classId
  let cs ← computations
    { num := numOf sub m, thresholds := thresholdsOf sub m, modelName := c.modelName, outputName := c.outputName
      subKey := sub, aggregationType := c.aggregationType, classWeights := cw, exampleWeighted := c.exampleWeighted }
  return (cs, { name := m.name, modelName := c.modelName, outputName := c.outputName, subKey := sub
                aggregationType := c.aggregationType, exampleWeighted := some c.exampleWeighted })

/-- The data of an evaluation as the two combiners get it (calibration_histogram.py 207–222,
binary_confusion_matrices.py 640–655), in the bundles of the runner. -/
structure Data where
  histogram : Sched (Except Err (List Histogram.HExample))
  counts : Sched (Except Err Bcm.Example)

/-- The columns of the matrices. (binary_confusion_matrices.py 675–696) -/
def columns (rows : List Bcm.Matrix) : Bcm.Cols :=
  ⟨rows.map Bcm.Matrix.tp, rows.map Bcm.Matrix.fp, rows.map Bcm.Matrix.tn, rows.map Bcm.Matrix.fn⟩

/-- What the two computations of binary_confusion_matrices.py 392–488 yield: the histogram and the matrices derived from
it, or the counts and the matrices made of them. -/
def matrices (cs : List Comp) (d : Data) : Except Err Bcm.Cols :=
  match cs.map Comp.body with
  | [.histogram n _ _ _ _ _ _ _, .fromHistogram ts _] => do
    let a ← (Histogram.combiner ⟨n, 0, 1, true⟩).run d.histogram
    Bcm.histogramResult ts (Histogram.extract a)
  | [.counts ts _ _ _ _ _ ids _ _ _ fractional, .fromCounts ts' _ _] => do
    let a ← (Bcm.combiner ⟨ts, ids.toNat, fractional⟩).run d.counts
    let rows ← Bcm.toMatrices (Bcm.extract ⟨ts, ids.toNat, fractional⟩ a) ts'
    return columns (rows.map fun r => r.1.2)
  | _ => .error .keyError

/-- The variables of a Keras metric: of the metrics with four counters, with two, and with one.
(tf_metric_wrapper.py 441–467) -/
inductive Variables where
  | four (truePositives trueNegatives falsePositives falseNegatives : List ℚ)
  | precision (truePositives falsePositives : List ℚ)
  | recall (truePositives falseNegatives : List ℚ)
  | one (accumulator : List ℚ)
  deriving DecidableEq, Repr

/-- tf_metric_wrapper.py 441–467. -/
def assign (c : Cls) (m : Bcm.Cols) : Variables :=
  if c = .auc || c = .specificityAtSensitivity || c = .sensitivityAtSpecificity then .four m.tp m.tn m.fp m.fn
  else if c = .precision then .precision m.tp m.fp
  else if c = .recall then .recall m.tp m.fn
  else if c = .truePositives then .one m.tp
  else if c = .falsePositives then .one m.fp
  else if c = .trueNegatives then .one m.tn
  else .one m.fn

/-- tf_metric_wrapper.py 433–468: the result of the metric, `keras` being its `result` method. -/
def value (keras : Variables → V) (c : Call) (m : Metric) (d : Data) : Except Err (Dict MetricKey V) := do
  let w ← wrap c m
  let cells ← matrices w.1 d
  return [(w.2, keras (assign m.cls cells))]

/-- confusion_matrix_metrics.py 2817–2863 `ConfusionMatrixAtThresholds._metric_computations`: the thresholds and the
matrices under the key of the metric. -/
def atThresholds (c : Call) (name : String) (ts : List Fl) (topK classId : Option ℤ) (d : Data) :
    Except Err (Dict MetricKey Bcm.Cols) := do
  let sub ← updateSubKey c.subKey topK classId
  let cs ← computations
    { thresholds := some ts, modelName := c.modelName, outputName := c.outputName
      subKey := sub, aggregationType := c.aggregationType, classWeights := c.classWeights
      exampleWeighted := c.exampleWeighted }
  let cells ← matrices cs d
  return [({ name := name, modelName := c.modelName, outputName := c.outputName, subKey := sub
             aggregationType := c.aggregationType, exampleWeighted := some c.exampleWeighted }, cells)]

/-- confusion_matrix_metrics.py 308–379 `ConfusionMatrixMetricBase._metric_computations`: the value computed of the
matrices by `f` (the `_metric_value` or `result` of the class, 381–401). -/
def baseMetric (f : Bcm.Cols → V) (c : Call) (name : String) (arg : Option ThresholdArg) (num topK classId : Option ℤ)
    (default : Option Fl) (d : Data) : Except Err (Dict MetricKey V) := do
  let p ← metricMatrices
    { modelName := c.modelName, outputName := c.outputName, subKey := c.subKey, aggregationType := c.aggregationType
      classWeights := c.classWeights, exampleWeighted := c.exampleWeighted } arg num topK classId default
  let cells ← matrices p.2 d
  return [({ name := name, modelName := c.modelName, outputName := c.outputName, subKey := p.1
             aggregationType := c.aggregationType, exampleWeighted := some c.exampleWeighted }, f cells)]

end KerasMatrices
end TFMA
