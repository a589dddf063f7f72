import Verif.Model.StandardExtracts
import Mathlib.Analysis.SpecialFunctions.Pow.Real

/-!
# Inverting the binary logarithm of labels and predictions

`metrics/preprocessors/invert_logarithm_preprocessors.py` 28–125 (`InvertBinaryLogarithmPreprocessor`) and the part of
`evaluators/metrics_plots_and_validations_evaluator.py` 342–360 which runs the preprocessors of a computation.

Numbers are real numbers: rounding and overflow of floating point numbers are left out. The preprocessor changes the
extracts it is given; the model returns the changed extracts.
-/

namespace TFMA
namespace InvertLog

open StdExtracts

/-- An array: its shape and its values in order. -/
structure Arr where
  shape : List ℕ
  data : List ℝ

/-- metrics/preprocessors/invert_logarithm_preprocessors.py 28–33 `_invert_log2_values`, one value. -/
noncomputable def invert (x : ℝ) : ℝ := (2 : ℝ) ^ x - 1

/-- `np.clip` (invert_logarithm_preprocessors.py 106–111): the larger of the value and the lower limit, and of that the smaller
one with the upper limit. -/
noncomputable def clip (lo hi x : ℝ) : ℝ := min (max x lo) hi

/-- The arguments of `InvertBinaryLogarithmPreprocessor` (invert_logarithm_preprocessors.py 39–60). -/
structure Args where
  name : Option String := none
  model : String := ""
  limit : Option ℝ := none

/-- metrics/preprocessors/invert_logarithm_preprocessors.py 54–58: the name, by default generated from the base name alone
(metrics/metric_util.py 96–122 `generate_private_name_from_arguments` without arguments). -/
def Args.nameOf (a : Args) : String :=
  match a.name with
  | some n => if n = "" then "_invert_binary_logarithm_preprocessor:" else n
  | none => "_invert_binary_logarithm_preprocessor:"

/-- metrics/preprocessors/invert_logarithm_preprocessors.py 62–72 `_read_label_or_prediction_in_multiple_dicts`. What is no
array (nothing, or a dictionary of models or outputs) is refused by `np.power` with TypeError. -/
noncomputable def readKey (model : String) (key : String) (e : Ext Arr) : Except Err Arr :=
  match getByKey e key (some model) none with
  | .leaf (some a) => .ok { a with data := a.data.map invert }
  | _ => .error .typeError

/-- metrics/preprocessors/invert_logarithm_preprocessors.py 105–111: the limit, if there is one. -/
noncomputable def winsorise (limit : Option ℝ) (a : Arr) : Arr :=
  match limit with
  | none => a
  | some m => { a with data := a.data.map (clip 0 m) }

/-- metrics/preprocessors/invert_logarithm_preprocessors.py 74–125 `process`: the extracts afterwards, which are also what is
yielded (125; metrics/metric_util.py 320 and utils/util.py 1138 keep references). -/
noncomputable def process (a : Args) (e : Ext Arr) : Except Err (Ext Arr) :=
  match readKey a.model "labels" e with
  | .error x => .error x
  | .ok labels =>
    let e1 := e.set "labels" (.leaf (some labels))
    match readKey a.model "predictions" e1 with
    | .error x => .error x
    | .ok p =>
      let predictions := winsorise a.limit p
      let e2 := e1.set "predictions" (.leaf (some predictions))
      if labels.shape ≠ predictions.shape then .error .valueError
      else .ok e2

/-- evaluators/metrics_plots_and_validations_evaluator.py 342–360: the inputs of the computations, each with one inverting
preprocessor, one after the other, and the extracts afterwards. Each computation works on a copy of the extracts (346). -/
noncomputable def inputsOf : List Args → Ext Arr → Except Err (List (List (Ext Arr)) × Ext Arr)
  | [], e => .ok ([], e)
  | a :: as, e =>
    let copy := e
    match process a copy with
    | .error x => .error x
    | .ok out =>
      match inputsOf as e with
      | .error x => .error x
      | .ok (outs, e') => .ok ([out] :: outs, e')

end InvertLog
end TFMA
