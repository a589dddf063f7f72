import Verif.Py.Basic
import Verif.Model.CocoSetup
import Mathlib.Data.String.Basic
import Mathlib.Data.List.Sort

/-!
# Names generated from arguments

tensorflow_model_analysis/metrics/metric_util.py 96–125 `generate_private_name_from_arguments`. The text of a value (`str`) is given;
`none` stands for an argument that is `None`.
-/

namespace TFMA
namespace PrivateNames

/-- The arguments by name. (96) -/
abbrev Kwargs := Dict String (Option String)

/-- metrics/metric_util.py 109–112. -/
def hidden (name : String) : String :=
  if name.toList.head? = some '_' then name else "_" ++ name

/-- `",".join(…)`. (119) -/
def joinCommas : List String → String
  | [] => ""
  | [x] => x
  | x :: y :: rest => x ++ "," ++ joinCommas (y :: rest)

/-- The arguments in the order of their names, without those that are `None`. (119–123) -/
def given (kwargs : Kwargs) : List (String × String) :=
  ((Dict.keys kwargs).insertionSort (· ≤ ·)).filterMap fun k => match kwargs.get? k with
    | some (some v) => some (k, v)
    | _ => none

/-- metrics/metric_util.py 96–125 `generate_private_name_from_arguments`. -/
def generate (name : String) (kwargs : Kwargs) : String :=
  hidden name ++ ":" ++ joinCommas ((given kwargs).map fun p => p.1 ++ "=" ++ p.2)

/-- object_detection_preprocessors.py 90–98: the name of the preprocessor; `int`, `num` and `range` are `str` of integers, floats and
pairs of floats. -/
def boxMatchName (int : ℤ → String) (num : ℚ → String) (range : Fl × Fl → String) (p : CocoSetup.PName) : String :=
  generate "bounding_box_match_preprocessor"
    [("class_id", some (int p.classId)), ("iou_threshold", p.iouThreshold.map num), ("area_range", p.areaRange.map range),
      ("max_num_detections", p.maxNumDetections.map int), ("class_weight", p.classWeight.map num)]

end PrivateNames
end TFMA
