import Verif.Model.Boxes
import Verif.Model.ConfusionMetrics

/-!
# Average precision and recall of object detection

metrics/object_detection_metrics.py with the parts of object_detection_confusion_matrix_metrics.py and
preprocessors/object_detection_preprocessors.py it uses; line numbers without file refer to the first.  Numbers are exact.
-/

namespace TFMA
namespace Coco

open Beam

/-! ### Arguments -/

/-- Arguments of metric_util.py 54–62; a single class id or class weight stands for the list with it (66–70).  `stacked`: one
of `labels_to_stack` and `predictions_to_stack` is a non-empty list. -/
structure Args where
  classIds : Option (List ℤ)
  classWeights : Option (List ℚ) := none
  areaRange : Option (List Fl) := none
  maxNumDetections : Option ℤ := none
  stacked : Bool := false
  outputName : String := ""

/-- metric_util.py 83: not an interval. -/
def badRange : List Fl → Bool
  | [lo, hi] => Fl.lt hi lo
  | _ => true

/-- metric_util.py 54–93 `validate_object_detection_arguments`. -/
def validate (a : Args) : Except Err Unit :=
  match a.classIds with
  | none => .error .valueError
  | some ids =>
    if a.classWeights.any (fun ws => ws.any (fun w => decide (w < 0)) || decide (ids.length ≠ ws.length)) then .error .valueError
    else if a.areaRange.any badRange then .error .valueError
    else if a.maxNumDetections.any (fun n => decide (n ≤ 0)) then .error .valueError
    else if a.outputName ≠ "" ∧ a.stacked = true then .error .valueError
    else .ok ()

/-- `np.linspace(a, b, n)`. (numpy, used in 110, 113, 338, 524) -/
def linspace (a b : ℚ) (n : ℕ) : List ℚ :=
  (List.range n).map fun (i : ℕ) => if n = 1 then a else a + (i : ℚ) * (b - a) / ((n : ℚ) - 1)

/-- 107–113: the recalls at which precisions are taken. -/
def recallsOf (recalls : Option (List ℚ)) (num : Option ℕ) : List ℚ := match recalls, num with
  | some rs, _ => rs
  | none, some n => linspace 0 1 n
  | none, none => linspace 0 1 101

/-- 183–189: the thresholds, 10000 by default; `range` of a negative number is empty. -/
def apThresholds (num : Option ℤ) : List ℚ :=
  let n := num.getD 10000
  1 / 1000000000000 :: (List.range (n - 2).toNat).map (fun (i : ℕ) => ((i : ℚ) + 1) * 1 / ((n : ℚ) - 1)) ++ [1 - 1 / 1000000000000]

/-- 337–338, 523–524. -/
def iousOf (ious : Option (List ℚ)) : List ℚ := ious.getD (linspace (1 / 2) (95 / 100) 10)

/-- 339–340, 645–646. -/
def weightsOf (ids : List ℤ) (ws : Option (List ℚ)) : List ℚ := ws.getD (List.replicate ids.length 1)

/-- object_detection_preprocessors.py 102–105: defaults of the preprocessor (`not area_range` for None). -/
def params (classId : ℤ) (iou : Option ℚ) (areaRange : Option Boxes.AreaRange) (maxNum : Option ℤ) (classWeight : Option ℚ)
    (weight : Option ℚ) : Boxes.Params :=
  { classId, iouThreshold := iou.getD (1 / 2), areaRange := areaRange.getD ⟨.fin 0, .pinf⟩, maxNumDetections := maxNum
    classWeight, weight }

/-! ### From images to confusion matrices -/

/-- An image: ground truths, detections and the example weight (None if there is none).
(object_detection_preprocessors.py 117–178) -/
structure Image where
  truths : List Boxes.Truth
  detections : List Boxes.Detection
  weight : Option ℚ := none

/-- metric_util.py 797–828 `_yield_fractional_labels` for one label, prediction and weight; examples without weight are
dropped. -/
def split (w y q : ℚ) : List Bcm.Row :=
  [⟨.fin 0, .fin q, w * (1 - y)⟩, ⟨.fin 1, .fin q, w * y⟩].filter fun r => decide (r.weight ≠ 0)

/-- object_detection_preprocessors.py 115–194 `process` (sorting is repeated in `toPairs`) and binary_confusion_matrices.py 624–660:
one element for every pair; without example weights every weight is 1 (metric_util.py 627–628). -/
def elements (p : Boxes.Params) (weighted : Bool) (img : Image) : Except Err (List (Except Err Bcm.Example)) :=
  (Boxes.toPairs { p with weight := img.weight } img.truths img.detections).map fun r =>
    (r.labels.zip (r.predictions.zip r.weights)).map fun x => .ok ⟨split (if weighted then x.2.2 else 1) x.1 x.2.1, none⟩

/-- The preprocessor over all images: an exception fails the evaluation. (object_detection_preprocessors.py 115–194) -/
def allElements (p : Boxes.Params) (weighted : Bool) : List Image → Except Err (List (Except Err Bcm.Example))
  | [] => .ok []
  | img :: imgs => match elements p weighted img with
    | .error e => .error e
    | .ok xs => match allElements p weighted imgs with
      | .error e => .error e
      | .ok ys => .ok (xs ++ ys)

/-- The confusion matrices (binary_confusion_matrices.py 419–488, 556–672; 100 example ids by default). -/
def matrices (ts : List ℚ) (s : Sched (Except Err Bcm.Example)) : Except Err (List Bcm.MRow) :=
  let c : Bcm.Config := ⟨ts.map .fin, 100, true⟩
  ((Bcm.combiner c).run s).bind fun a => (Bcm.toMatrices (Bcm.extract c a) c.thresholds).map (·.map Prod.fst)

/-! ### Values -/

/-- `np.nanmean`: NaN entries are ignored, NaN if there is nothing else. (numpy, used in 226, 403, 574, 690) -/
def nanmean (l : List Fl) : Fl :=
  let xs := l.filter fun x => decide (x ≠ .nan)
  if xs = [] then .nan else Fl.div (xs.foldl Fl.add (.fin 0)) (.fin xs.length)

/-- 222–228: the average precision from the precisions at the recalls (confusion_matrix_metrics.py 897–908). -/
def averagePrecision (ts recalls : List ℚ) (s : Sched (Except Err Bcm.Example)) : Except Err Fl :=
  (matrices ts s).map fun ms => nanmean (recalls.map fun r => Bcm.precisionAtRecall (.fin r) ms)

/-- confusion_matrix_metrics.py 2871–2919 `MaxRecall`: the recall at one threshold (435–457). -/
def maxRecall (s : Sched (Except Err Bcm.Example)) : Except Err Fl :=
  (matrices [1 / 1000000000000] s).map fun ms => match Bcm.metricValue Bcm.recall ms with
    | .scalar v => v
    | .array _ => .nan

/-- Evaluates a list of metrics and averages them (398–405, 560–575, 687–692). -/
def meanOver {X : Type} (f : X → Except Err Fl) (xs : List X) : Except Err Fl := (xs.mapM f).map nanmean

/-- 352–395: the average precisions that are averaged. -/
def apList (ious : Option (List ℚ)) (ids : List ℤ) (ws : Option (List ℚ)) : List (ℚ × ℤ × ℚ) :=
  (iousOf ious).flatMap fun iou => (ids.zip (weightsOf ids ws)).map fun x => (iou, x.1, x.2)

/-- 261–420 `COCOMeanAveragePrecision`; `sched` is how the elements of each of the underlying metrics are combined. -/
def meanAveragePrecision (num : Option ℤ) (recalls : List ℚ) (ious : Option (List ℚ)) (ids : List ℤ) (ws : Option (List ℚ))
    (sched : ℚ × ℤ × ℚ → Sched (Except Err Bcm.Example)) : Except Err Fl :=
  meanOver (fun x => averagePrecision (apThresholds num) recalls (sched x)) (apList ious ids ws)

/-- 430–580 `COCOAverageRecall`. -/
def averageRecall (ious : Option (List ℚ)) (sched : ℚ → Sched (Except Err Bcm.Example)) : Except Err Fl :=
  meanOver (fun iou => maxRecall (sched iou)) (iousOf ious)

/-- 603–763 `COCOMeanAverageRecall`. -/
def meanAverageRecall (ious : Option (List ℚ)) (ids : List ℤ) (ws : Option (List ℚ))
    (sched : ℤ × ℚ → ℚ → Sched (Except Err Bcm.Example)) : Except Err Fl :=
  meanOver (fun x => averageRecall ious (sched x)) (ids.zip (weightsOf ids ws))

end Coco
end TFMA
