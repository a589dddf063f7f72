import Verif.Py.Basic
import Verif.Py.Float
import Mathlib.Data.Rat.Floor
import Mathlib.Data.List.Sort

/-!
# Model of the object detection preprocessing

metrics/preprocessors/utils/box_match.py, bounding_box.py, object_detection_format.py. Coordinates, overlaps and confidences
are rationals, so rounding is not modelled. The shape checks of the arrays are replaced by the types.
-/

namespace TFMA
namespace Boxes

/-- A bounding box, the columns LEFT, TOP, RIGHT, BOTTOM of a row (bounding_box.py 25–27). -/
structure Box where
  left : ℚ
  top : ℚ
  right : ℚ
  bottom : ℚ
deriving DecidableEq

/-- A row of the ground truth array: a box and its class. (box_match.py 29–60) -/
structure Truth where
  box : Box
  cls : ℚ
deriving DecidableEq

/-- A row of the prediction array: a box, its class and its confidence. (box_match.py 29–60) -/
structure Detection where
  box : Box
  cls : ℚ
  confidence : ℚ
deriving DecidableEq

/-- bounding_box.py 57–61. -/
def Box.area (b : Box) : ℚ := (b.right - b.left) * (b.bottom - b.top)

/-- bounding_box.py 30–62 `bounding_box_area`. -/
def areas (boxes : List Box) : Except Err (List ℚ) :=
  if boxes.any (fun b => decide (b.right - b.left < 0)) then .error .valueError
  else if boxes.any (fun b => decide (b.bottom - b.top < 0)) then .error .valueError
  else .ok (boxes.map Box.area)

/-- box_match.py 137–145. -/
def intersection (a b : Box) : ℚ :=
  max (min a.right b.right - max a.left b.left) 0 * max (min a.bottom b.bottom - max a.top b.top) 0

/-- box_match.py 147–157: division where the union is not zero, otherwise zero. -/
def iou (a b : Box) : ℚ :=
  let union := a.area + b.area - intersection a b
  if union ≠ 0 then intersection a b / union else 0

/-- box_match.py 98–157 `compute_ious_for_image`. -/
def ious (boxes1 boxes2 : List Box) : Except Err (List (List ℚ)) :=
  match areas boxes1 with
  | .error e => .error e
  | .ok _ => match areas boxes2 with
    | .error e => .error e
    | .ok _ => .ok (boxes1.map fun a => boxes2.map fun b => iou a b)

/-- box_match.py 81–90: the loop over the ground truths. `row` pairs the overlaps of the prediction with the entries of
`matches_gt`; `iou` and `found` are the variables of the loop. -/
def pick : ℕ → List (ℚ × Option ℕ) → ℚ → Option ℕ → Option ℕ
  | _, [], _, found => found
  | j, (_, some _) :: row, iou, found => pick (j + 1) row iou found
  | j, (x, none) :: row, iou, found =>
    if x < iou then pick (j + 1) row iou found else pick (j + 1) row x (some j)

/-- box_match.py 79 `np.minimum(threshold, 1.0 - 1e-10)`. -/
def cap (threshold : ℚ) : ℚ := min threshold (1 - 1 / 10000000000)

/-- box_match.py 93–94. -/
def assign (gts : List (Option ℕ)) (i : ℕ) : Option ℕ → List (Option ℕ)
  | none => gts
  | some j => gts.set j (some i)

/-- box_match.py 74–94: the loop over the predictions for one threshold; returns `matches_gt` and `matches_pred`, with `none`
for -1. -/
def matchLoop (threshold : ℚ) : ℕ → List (List ℚ) → List (Option ℕ) → List (Option ℕ) × List (Option ℕ)
  | _, [], gts => (gts, [])
  | i, row :: rows, gts =>
    let found := pick 0 (row.zip gts) (cap threshold) none
    let r := matchLoop threshold (i + 1) rows (assign gts i found)
    (r.1, found :: r.2)

/-- box_match.py 29–95 `_match_boxes`, for one threshold given as a float. `numGt` is the number of columns, which an array has
even if it has no rows. -/
def matchBoxes (rows : List (List ℚ)) (numGt : ℕ) (threshold : ℚ) : Except Err (List (Option ℕ) × List (Option ℕ)) :=
  if threshold < 0 then .error .valueError else .ok (matchLoop threshold 0 rows (List.replicate numGt none))

/-- bounding_box.py 65–85 `filter_boxes_by_class` for one class id. -/
def ofClass {R : Type} (cls : R → ℚ) (classId : ℤ) (rows : List R) : List R := rows.filter fun r => decide (cls r = classId)

/-- An area range; the upper bound may be infinite. (box_match.py 160–218) -/
structure AreaRange where
  lower : Fl
  upper : Fl

/-- bounding_box.py 117. -/
def AreaRange.contains (r : AreaRange) (area : ℚ) : Bool := r.lower.le (.fin area) && (Fl.fin area).le r.upper

/-- bounding_box.py 88–117 `check_boxes_in_area_range`. -/
def inRange (boxes : List Box) (r : AreaRange) : Except Err (List Bool) :=
  if r.upper.le r.lower then .error .valueError
  else match areas boxes with
    | .error e => .error e
    | .ok as => .ok (as.map r.contains)

/-- `rows[mask, :]`. (box_match.py 81–94) -/
def select {R : Type} (rows : List R) (mask : List Bool) : List R := ((rows.zip mask).filter Prod.snd).map Prod.fst

/-- bounding_box.py 138–162 `sort_boxes_by_confidence`: a stable sort, larger confidences first. -/
def sortByConfidence (rows : List Detection) : List Detection :=
  rows.insertionSort fun a b => a.confidence ≥ b.confidence

/-- box_match.py 230–232. -/
def limit (n : Option ℤ) (rows : List Detection) : List Detection := match n with
  | none => rows
  | some n => if n < (rows.length : ℤ) then rows.take n.toNat else rows

/-- The result: labels, predictions and weights. (box_match.py 247–271) -/
structure Pairs where
  labels : List ℚ
  predictions : List ℚ
  weights : List ℚ
deriving DecidableEq

/-- box_match.py 247–271: the pairs for the kept ground truths and detections and their matching. -/
def pairs (numGt : ℕ) (dets : List Detection) (tags : List Bool) (m : List (Option ℕ) × List (Option ℕ))
    (weight classWeight : Option ℚ) : Pairs :=
  let unmatched := (tags.zip m.2).map fun p => p.1 && p.2.isNone
  let labels := List.replicate numGt 1 ++ List.replicate (unmatched.count true) 0
  { labels
    predictions := (m.1.filterMap id).map (fun i => ((dets[i]?).map Detection.confidence).getD 0) ++
      List.replicate (m.1.count none) 0 ++ (select dets unmatched).map Detection.confidence
    weights := labels.map fun _ => 1 * weight.getD 1 * classWeight.getD 1 }

/-- The keyword arguments of `boxes_to_label_prediction_example_weight`. (box_match.py 160–218) -/
structure Params where
  classId : ℤ
  iouThreshold : ℚ
  areaRange : AreaRange
  maxNumDetections : Option ℤ := none
  classWeight : Option ℚ := none
  weight : Option ℚ := none

/-- box_match.py 220–232: the kept ground truths and detections. -/
def kept (p : Params) (gt : List Truth) (pred : List Detection) : Except Err (List Truth × List Detection) :=
  let gt := ofClass Truth.cls p.classId gt
  let pred := ofClass Detection.cls p.classId pred
  match inRange (gt.map Truth.box) p.areaRange with
  | .error e => .error e
  | .ok mask => .ok (select gt mask, limit p.maxNumDetections (sortByConfidence pred))

/-- box_match.py 160–271 `boxes_to_label_prediction_example_weight`, with the functions used by default. -/
def toPairs (p : Params) (gt : List Truth) (pred : List Detection) : Except Err Pairs :=
  if p.maxNumDetections.any (fun n => decide (n ≤ 0)) then .error .valueError
  else if p.classId < 0 then .error .valueError
  else if p.classWeight.any (fun w => decide (w < 0)) then .error .valueError
  else match kept p gt pred with
    | .error e => .error e
    | .ok (gt, dets) => match ious (dets.map Detection.box) (gt.map Truth.box) with
      | .error e => .error e
      | .ok rows => match matchBoxes rows gt.length p.iouThreshold with
        | .error e => .error e
        | .ok m => match inRange (dets.map Detection.box) p.areaRange with
          | .error e => .error e
          | .ok tags => .ok (pairs gt.length dets tags m p.weight p.classWeight)

/-- object_detection_format.py 180–231 `truncate_by_num_detections`, after the number has been looked up (`none`: the key is
missing and this is allowed). -/
def truncate {R : Type} (numRows : Option ℤ) (rows : List R) : List R := match numRows with
  | none => rows
  | some n => if n ≠ 0 ∧ n > 0 ∧ (rows.length : ℤ) > n then rows.take n.toNat else rows

end Boxes
end TFMA
