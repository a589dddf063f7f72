import Verif.Py.Basic
import Verif.Model.Boxes

/-!
# Boxes from columns

tensorflow_model_analysis/metrics/preprocessors/utils/object_detection_format.py 29–231 and the first part of
`BoundingBoxMatchPreprocessor.process` (object_detection_preprocessors.py 112–166): the boxes that are matched, put together from the
columns the metric names. Numbers are rationals. What follows, the matching, is in `Boxes`.
-/

namespace TFMA
namespace StackBoxes

/-- The values of an array by its number of dimensions; one with two dimensions has a number of columns and rows.
(object_detection_format.py 82–86) -/
inductive Body where
  | d0 (x : ℚ)
  | d1 (l : List ℚ)
  | d2 (w : ℕ) (rows : List (List ℚ))
  | more (data : List ℚ)

/-- An array or scalar of numpy; `integral`: the dtype is one of integers. -/
structure Value where
  integral : Bool
  body : Body

/-- A dictionary of columns. -/
abbrev Columns := Dict String Value

/-- Labels or predictions as they are found: none, columns, or an array. (object_detection_format.py 74, 150) -/
inductive Source where
  | absent
  | columns (d : Columns)
  | array (v : Value)

/-- An array of two dimensions: number of columns and rows. -/
abbrev Matrix := ℕ × List (List ℚ)

/-- `arr.size`. (object_detection_preprocessors.py 138) -/
def Body.size : Body → ℕ
  | .d0 _ => 1
  | .d1 l => l.length
  | .d2 w rows => rows.length * w
  | .more data => data.length

/-- `x or {}` (object_detection_format.py 74–76, 150–152): an array of several numbers has no truth value. Simplification: an array of
at most one number counts as empty. -/
def Source.orEmpty : Source → Except Err Columns
  | .absent => .ok []
  | .columns d => .ok d
  | .array v => if v.body.size > 1 then .error .valueError else .ok []

/-- `ChainMap.__getitem__`: the first dictionary that has the key. (object_detection_format.py 73–77, 149–153, 209–213) -/
def search (maps : List Columns) (name : String) : Option Value := maps.findSome? fun d => d.get? name

/-- An array as columns of a matrix. (object_detection_format.py 82–90, 158–167) -/
def asColumns (v : Value) : Except Err Matrix :=
  match v.body with
  | .d2 w rows => .ok (w, rows)
  | .d1 l => .ok (1, l.map fun x => [x])
  | _ => .error .valueError

/-- The loop of object_detection_format.py 79–100, 155–176; `none` where it returns because a column is missing. -/
def collect (maps : List Columns) (allowMissing : Bool) : List String → Except Err (Option (List Matrix))
  | [] => .ok (some [])
  | name :: rest => match search maps name with
    | none => if allowMissing then .ok none else .error .keyError
    | some v => match asColumns v with
      | .error e => .error e
      | .ok c => match collect maps allowMissing rest with
        | .error e => .error e
        | .ok none => .ok none
        | .ok (some cs) => .ok (some (c :: cs))

/-- `np.hstack` of two matrices. (object_detection_format.py 101, 176) -/
def beside (a b : Matrix) : Matrix := (a.1 + b.1, List.zipWith (· ++ ·) a.2 b.2)

/-- `np.hstack` (object_detection_format.py 101, 176): at least one matrix, all with the same number of rows. -/
def hstack : List Matrix → Except Err Matrix
  | [] => .error .valueError
  | c :: cs => if cs.all fun d => decide (d.2.length = c.2.length) then .ok (cs.foldl beside c) else .error .valueError

/-- object_detection_format.py 29–102 `stack_labels` with `missing := 5`, 105–177 `stack_predictions` with `missing := 6`; `first` are
the labels or predictions. -/
def stack (missing : ℕ) (first : Source) (features transformed : Columns) (allowMissing : Bool) (names : List String) :
    Except Err Matrix :=
  match first.orEmpty with
  | .error e => .error e
  | .ok d => match collect [d, features, transformed] allowMissing names with
    | .error e => .error e
    | .ok none => .ok (missing, [])
    | .ok (some cs) => hstack cs

/-- metrics/metric_util.py 234–247 `safe_to_scalar`: the number of detections and whether it is an integer; the number for an empty
array is a float. (object_detection_format.py 215–219) -/
def countOf (v : Value) : Except Err (Bool × ℚ) :=
  match v.body with
  | .d0 x => .ok (v.integral, x)
  | .d1 [] => .ok (false, 0)
  | .d1 [x] => .ok (v.integral, x)
  | .d1 _ => .error .valueError
  | .d2 w rows => if rows.length * w = 0 then .ok (false, 0) else match rows with
    | [[x]] => .ok (v.integral, x)
    | _ => .error .valueError
  | .more [] => .ok (false, 0)
  | .more [x] => .ok (v.integral, x)
  | .more _ => .error .valueError

/-- object_detection_format.py 228–231: a slice needs an integer. -/
def cut (count : Option (Bool × ℚ)) (rows : List (List ℚ)) : Except Err (List (List ℚ)) :=
  match count with
  | none => .ok rows
  | some (integral, n) =>
    if n ≠ 0 ∧ n > 0 ∧ (rows.length : ℚ) > n then
      if integral then .ok (rows.take n.num.toNat) else .error .typeError
    else .ok rows

/-- object_detection_format.py 180–231 `truncate_by_num_detections`. -/
def truncate (predictions : Source) (features transformed : Columns) (allowMissing : Bool) (key : String) (rows : List (List ℚ)) :
    Except Err (List (List ℚ)) :=
  match predictions.orEmpty with
  | .error e => .error e
  | .ok d =>
    if key ≠ "" then match search [d, features, transformed] key with
      | none => if !allowMissing then .error .keyError else cut none rows
      | some v => match countOf v with
        | .error e => .error e
        | .ok c => cut (some c) rows
    else cut none rows

/-- The extracts of an image and what the preprocessor is given. (object_detection_preprocessors.py 43–110) -/
structure Image where
  labels : Source
  predictions : Source
  features : Columns
  transformed : Columns

/-- The arguments that matter here. (object_detection_preprocessors.py 50–54) -/
structure Keys where
  labels : List String
  predictions : List String
  numDetections : String
  allowMissing : Bool

/-- A matrix as a value. (object_detection_preprocessors.py 122) -/
def ofMatrix (m : Matrix) : Source := .array ⟨false, .d2 m.1 m.2⟩

/-- object_detection_preprocessors.py 121–127. -/
def labelsOf (k : Keys) (im : Image) : Except Err Source :=
  if k.labels.isEmpty then .ok im.labels
  else match stack 5 im.labels im.features im.transformed k.allowMissing k.labels with
    | .error e => .error e
    | .ok m => .ok (ofMatrix m)

/-- object_detection_preprocessors.py 128–136. -/
def predictionsOf (k : Keys) (im : Image) : Except Err Source :=
  if k.predictions.isEmpty then .ok im.predictions
  else match stack 6 im.predictions im.features im.transformed k.allowMissing k.predictions with
    | .error e => .error e
    | .ok m => .ok (ofMatrix m)

/-- object_detection_preprocessors.py 138–145; `.size` needs an array. The rows of an array with another number of dimensions than two
are left alone: it is refused below in any case. -/
def shortened (k : Keys) (im : Image) (p : Source) : Except Err Source :=
  if k.numDetections = "" then .ok p
  else match p with
    | .array ⟨i, .d2 w rows⟩ =>
      if rows.length * w = 0 then .ok p
      else match truncate im.predictions im.features im.transformed k.allowMissing k.numDetections rows with
        | .error e => .error e
        | .ok rows => .ok (.array ⟨i, .d2 w rows⟩)
    | .array _ => .ok p
    | _ => .error .attributeError

/-- object_detection_preprocessors.py 149–166: an array of two dimensions with more than `n` columns. `missing` is the error for none. -/
def checked (missing : Err) (n : ℕ) : Source → Except Err (List (List ℚ))
  | .absent => .error missing
  | .columns _ => .error .attributeError
  | .array v => match v.body with
    | .d2 w rows => if w ≤ n then .error .valueError else .ok rows
    | _ => .error .valueError

/-- object_detection_preprocessors.py 112–166: rows of the ground truth and of the detections of an image. -/
def prepare (k : Keys) (im : Image) : Except Err (List (List ℚ) × List (List ℚ)) :=
  match labelsOf k im with
  | .error e => .error e
  | .ok l => match predictionsOf k im with
    | .error e => .error e
    | .ok p => match shortened k im p with
      | .error e => .error e
      | .ok p => match checked .keyError 4 l with
        | .error e => .error e
        | .ok gt => match checked .attributeError 5 p with
          | .error e => .error e
          | .ok pred => .ok (gt, pred)

/-- A row of the ground truth: left, top, right, bottom, class. (box_match.py 104–128 by the positions of bounding_box.py) -/
def truthOf (row : List ℚ) : Boxes.Truth :=
  ⟨⟨row.getD 0 0, row.getD 1 0, row.getD 2 0, row.getD 3 0⟩, row.getD 4 0⟩

/-- A row of the detections: left, top, right, bottom, class, confidence. -/
def detectionOf (row : List ℚ) : Boxes.Detection :=
  ⟨⟨row.getD 0 0, row.getD 1 0, row.getD 2 0, row.getD 3 0⟩, row.getD 4 0, row.getD 5 0⟩

end StackBoxes
end TFMA
