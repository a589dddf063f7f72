import Verif.Model.Coco
import Verif.Model.SetMatchMetrics

/-!
# Object detection metrics from confusion matrices

metrics/object_detection_confusion_matrix_metrics.py (line numbers without a file) from the boxes over the preprocessor
(metrics/preprocessors/object_detection_preprocessors.py), `to_label_prediction_example_weight` and the confusion matrices to the
value.  Numbers are exact.
-/

namespace TFMA
namespace Detection

open Beam MatrixSetup

/-- The argument `recall`: a float, a list of floats or an integer. (39, 659) -/
inductive RecallArg where
  | float (r : Fl)
  | list (rs : List Fl)
  | whole (n : ℤ)
  deriving DecidableEq

/-- 109–114, 724–729: the loop over the recalls; an integer is not iterable, NaN passes. -/
def checkRecall : RecallArg → Except Err Unit
  | .float r => if Fl.lt r (.fin 0) || Fl.lt (.fin 1) r then .error .valueError else .ok ()
  | .list rs => if rs.any fun r => Fl.lt r (.fin 0) || Fl.lt (.fin 1) r then .error .valueError else .ok ()
  | .whole _ => .error .typeError

/-- The metrics of the file (37, 203, 356, 509, 657). -/
inductive Kind where
  | precision
  | recall
  | maxRecall
  | precisionAtRecall (r : RecallArg)
  | thresholdAtRecall (r : RecallArg)
  deriving DecidableEq

/-- confusion_matrix_metrics.py 188–222: one value for a float, an array for a list. -/
def atRecalls (f : Fl → List Bcm.MRow → Fl) (r : RecallArg) (ms : List Bcm.MRow) : Except Err (Bcm.Value Fl) := match r with
  | .float r => .ok (.scalar (f r ms))
  | .list rs => .ok (.array (rs.map fun r => f r ms))
  | .whole _ => .error .typeError

/-- The value of a metric from the matrices. (`_metric_value` of the base classes in confusion_matrix_metrics.py, 435–457, 897–908,
2989–3000) -/
def valueOf : Kind → List Bcm.MRow → Except Err (Bcm.Value Fl)
  | .precision, ms => .ok (Bcm.metricValue Bcm.precision ms)
  | .recall, ms => .ok (Bcm.metricValue Bcm.recall ms)
  | .maxRecall, ms => .ok (Bcm.metricValue Bcm.recall ms)
  | .precisionAtRecall r, ms => atRecalls Bcm.precisionAtRecall r ms
  | .thresholdAtRecall r, ms => atRecalls Bcm.thresholdAtRecall r ms

/-- The thresholds of a metric: those given, with confusion_matrix_metrics.py 342–350 `_metric_computations`; the maximum recall has
its own (574–585 and confusion_matrix_metrics.py 2868, 2910–2916) and no number of thresholds; the default is 0.5 for precision and
recall (431–433) and none for the others.  No top k. -/
def thresholdsOf (k : Kind) (num : Option ℤ) (arg : Option ThresholdArg) : Except Err (Option ℤ × Option (List Fl)) := match k with
  | .precision | .recall => (metricThresholds arg num none (some (.fin (1 / 2)))).map fun ts => (num, ts)
  | .maxRecall => (metricThresholds (some (.float (.fin (1 / 1000000000000)))) none none (some (.fin (1 / 2)))).map fun ts => (none, ts)
  | .precisionAtRecall _ | .thresholdAtRecall _ => (metricThresholds arg num none none).map fun ts => (num, ts)

/-- preprocessors/object_detection_preprocessors.py 169–194: what is yielded for an image (sorting is repeated in `toPairs`). -/
def itemsOf (p : Boxes.Params) (img : Coco.Image) : Except Err (List SetMatch.Item) :=
  (Boxes.toPairs { p with weight := img.weight } img.truths img.detections).map fun r =>
    (r.labels.zip (r.predictions.zip r.weights)).map fun x => ⟨x.1, .fin x.2.1, some x.2.2⟩

/-- The preprocessor over all images: an exception fails the evaluation.
(evaluators/metrics_plots_and_validations_evaluator.py 336–353) -/
def allItems (p : Boxes.Params) : List Coco.Image → Except Err (List SetMatch.Item)
  | [] => .ok []
  | img :: imgs => match itemsOf p img with
    | .error e => .error e
    | .ok xs => match allItems p imgs with
      | .error e => .error e
      | .ok ys => .ok (xs ++ ys)

/-- 154–199 (and 307–350, 460–503, 608–651, 768–811): the value for the items of all images, combined in some way; `args` has the
names of model and output. -/
def value (part : ℕ → List Fl → List ℕ) (k : Kind) (num : Option ℤ) (arg : Option ThresholdArg) (args : Inputs.Args)
    (s : Sched SetMatch.Item) : Except Err (Bcm.Value Fl) := match thresholdsOf k num arg with
  | .error e => .error e
  | .ok (num, ts) => match SetMatch.matricesWith part args num ts s with
    | .error e => .error e
    | .ok ms => valueOf k ms

end Detection
end TFMA
