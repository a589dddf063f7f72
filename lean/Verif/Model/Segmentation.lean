import Verif.Beam.Combine
import Verif.Model.Inputs

/-!
# Semantic segmentation (metrics/semantic_segmentation_confusion_matrix_metrics.py and the image preprocessor)

Pixels are integers; the decoding of image files (PIL) is a parameter.
-/

namespace TFMA
namespace Segmentation

open Beam Inputs

/-! ### The image preprocessor, preprocessors/image_preprocessors.py -/

/-- A value of an extract: the bytes of an image file or an array. (preprocessors/image_preprocessors.py 31–37, 104–106) -/
inductive Value where
  | bytes (b : List ℕ)
  | array (a : Arr ℤ)
  deriving DecidableEq, Repr

/-- The value under "example_weights", an array or a dictionary (with several models or outputs).
(preprocessors/image_preprocessors.py 156–157) -/
inductive Weights where
  | array
  | dict (d : Dict String (Arr ℤ))
  deriving DecidableEq, Repr

/-- The extracts read by the preprocessor; labels and predictions are those of the model. A missing entry is empty
(`or {}`). (preprocessors/image_preprocessors.py 92–100) -/
structure Source where
  labels : Dict String Value
  predictions : Dict String Value
  features : Dict String Value
  transformed : Dict String Value
  weights : Option Weights

/-- `collections.ChainMap`: the first dictionary with the key. (preprocessors/image_preprocessors.py 96–107) -/
def chainGet (key : String) : List (Dict String Value) → Option Value
  | [] => none
  | d :: ds => match Dict.get? d key with
    | some v => some v
    | none => chainGet key ds

/-- preprocessors/image_preprocessors.py 80–107 `_read_image_in_mutliple_dicts`; with `decode_image` false the value
must be an array, otherwise `.shape` fails later (146). -/
def readImage (decode : Value → Except Err (Arr ℤ)) (key : String) (dicts : List (Dict String Value))
    (decodeImage : Bool) : Except Err (Arr ℤ) :=
  match chainGet key dicts with
  | none => .error .valueError
  | some v => if decodeImage then decode v else match v with
    | .array a => .ok a
    | .bytes _ => .error .attributeError

/-- metric_util.py 271–284 applied to the value of line 157: the message for missing labels calls `.keys()`, which an
array does not have. -/
def toInputs : Weights → Except Err (Arr ℤ × Arr ℤ)
  | .array => .error .attributeError
  | .dict d => match Dict.get? d "labels", Dict.get? d "predictions" with
    | some l, some p => .ok (l, p)
    | _, _ => .error .valueError

/-- preprocessors/image_preprocessors.py 109–159 `process`: the label and prediction images handed to the combiner. -/
def process (decode : Value → Except Err (Arr ℤ)) (truthKey predictionKey : String) (decodeTruth decodePrediction : Bool)
    (x : Source) : Except Err (Arr ℤ × Arr ℤ) := do
  let l ← readImage decode truthKey [x.labels, x.features, x.transformed] decodeTruth
  let p ← readImage decode predictionKey [x.predictions, x.features, x.transformed] decodePrediction
  if l.shape ≠ p.shape then .error .valueError
  else match x.weights with
    | some w => toInputs w
    | none => .ok (l, p)

/-! ### The combiner -/

/-- binary_confusion_matrices.py `Matrix` as used here: numbers of pixels.
(semantic_segmentation_confusion_matrix_metrics.py 197–202) -/
structure Mat where
  tp : ℕ
  tn : ℕ
  fp : ℕ
  fn : ℕ
  deriving DecidableEq, Repr

/-- semantic_segmentation_confusion_matrix_metrics.py 206–211, 223–228. -/
def Mat.add (a b : Mat) : Mat := ⟨a.tp + b.tp, a.tn + b.tn, a.fp + b.fp, a.fn + b.fn⟩

/-- `ground_truth != self._ignore_ground_truth_id`; every pixel differs from None.
(semantic_segmentation_confusion_matrix_metrics.py 184, 193) -/
def kept (ignore : Option ℤ) (g : ℤ) : Bool := match ignore with
  | none => true
  | some i => decide (g ≠ i)

/-- semantic_segmentation_confusion_matrix_metrics.py 178–202: the matrix of a class for one image. -/
def classMatrix (ignore : Option ℤ) (c : ℤ) (truth prediction : List ℤ) : Mat :=
  let pixels := truth.zip prediction
  ⟨pixels.countP fun x => decide (x.1 = c) && decide (x.2 = c),
    pixels.countP fun x => decide (x.1 ≠ c) && decide (x.2 ≠ c) && kept ignore x.1,
    pixels.countP fun x => decide (x.1 ≠ c) && decide (x.2 = c) && kept ignore x.1,
    pixels.countP fun x => decide (x.1 = c) && decide (x.2 ≠ c)⟩

/-- semantic_segmentation_confusion_matrix_metrics.py 203–211, 222–230: add to the entry or create it. -/
def bump (a : Dict ℤ Mat) (c : ℤ) (m : Mat) : Dict ℤ Mat :=
  Dict.set a c (match Dict.get? a c with | some v => Mat.add v m | none => m)

/-- semantic_segmentation_confusion_matrix_metrics.py 158–212 `add_input`. -/
def addImage (classIds : List ℤ) (ignore : Option ℤ) (a : Dict ℤ Mat) (x : Arr ℤ × Arr ℤ) : Except Err (Dict ℤ Mat) :=
  if x.1.shape.length ≠ 2 then .error .valueError
  else if x.1.shape ≠ x.2.shape then .error .valueError
  else .ok (classIds.foldl (fun a c => bump a c (classMatrix ignore c x.1.data x.2.data)) a)

/-- semantic_segmentation_confusion_matrix_metrics.py 220–230. -/
def mergeTwo (r acc : Dict ℤ Mat) : Dict ℤ Mat := acc.foldl (fun r kv => bump r kv.1 kv.2) r

/-- semantic_segmentation_confusion_matrix_metrics.py 133–231 `_SemanticSegmentationConfusionMatrixCombiner`; an
element is the outcome of the preprocessor. -/
def combiner (classIds : List ℤ) (ignore : Option ℤ) : CombineFn (Except Err (Arr ℤ × Arr ℤ)) (Dict ℤ Mat) where
  create := []
  addInput a x := x.bind (addImage classIds ignore a)
  merge := mergeWith mergeTwo

/-- semantic_segmentation_confusion_matrix_metrics.py 377–391 `result`: the values of the derived metric by class.  The
private matrices of 233–249 are found by the class of their sub key. -/
def derived (value : Mat → ℕ) (matrices : Dict ℤ Mat) : List ℤ → Dict ℤ ℕ → Except Err (Dict ℤ ℕ)
  | [], out => .ok out
  | c :: cs, out => match Dict.get? matrices c with
    | none => .error .keyError
    | some m => derived value matrices cs (Dict.set out c (value m))

end Segmentation
end TFMA
