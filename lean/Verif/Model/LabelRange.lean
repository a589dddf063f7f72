import Verif.Model.Config
import Verif.Model.Plots

/-!
# The range of the calibration plot (metrics/calibration_plot.py 67–137, utils/model_util.py 137–167)
-/

namespace TFMA
namespace LabelRange

open Config

/-- utils/model_util.py 137–146: the loop of `get_model_spec`. -/
def specNamed (name : String) : List ModelSpec → Option ModelSpec
  | [] => none
  | s :: rest => if s.name = name then some s else specNamed name rest

/-- utils/model_util.py 137–146 `get_model_spec`. -/
def modelSpec (config : EvalConfig) (name : String) : Option ModelSpec :=
  match config.modelSpecs with
  | [s] => if name = "" then some s else specNamed name [s]
  | specs => specNamed name specs

/-- utils/model_util.py 149–167 `get_label_key`, with the label keys of the spec afterwards: reading a key of a map of a message that is
not there adds it with an empty text. -/
def getLabelKey (spec : ModelSpec) (output : String) : Except Err (Option String × Dict String String) :=
  if output ≠ "" then
    if spec.labelKey ≠ "" then .ok (some spec.labelKey, spec.labelKeys)
    else if !spec.labelKeys.isEmpty then
      match Dict.get? spec.labelKeys output with
      | some k => .ok (some k, spec.labelKeys)
      | none => .ok (some "", Dict.set spec.labelKeys output "")
    else .ok (none, spec.labelKeys)
  else if spec.labelKey ≠ "" then .ok (some spec.labelKey, spec.labelKeys)
  else if !spec.labelKeys.isEmpty then .error .valueError
  else .ok (none, spec.labelKeys)

/-- calibration_plot.py 67–103 `_find_label_domain`; an empty label key counts as none. -/
def labelDomain (config : EvalConfig) (schema : List Plots.Feature) (model output : String) : Except Err (Option ℚ × Option ℚ) :=
  match modelSpec config model with
  | none => .ok (none, none)
  | some spec =>
    match getLabelKey spec output with
    | .error e => .error e
    | .ok (key, _) => .ok (Plots.findLabelDomain schema (key.filter fun k => decide (k ≠ "")))

/-- calibration_plot.py 127–137: the range of the plot; a config or a schema that is there is true in python. -/
def plotRange (left right : Option ℚ) (config : Option EvalConfig) (schema : Option (List Plots.Feature)) (model output : String) :
    Except Err (ℚ × ℚ) :=
  let label : Except Err (Option ℚ × Option ℚ) :=
    if left.isNone || right.isNone then
      match config, schema with
      | some c, some s => labelDomain c s model output
      | _, _ => .ok (none, none)
    else .ok (none, none)
  match label with
  | .error e => .error e
  | .ok (labelLeft, labelRight) => .ok (left.getD (labelLeft.getD 0), right.getD (labelRight.getD 1))

end LabelRange
end TFMA
