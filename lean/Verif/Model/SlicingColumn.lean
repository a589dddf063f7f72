import Verif.Model.Config

/-!
# The column of counts of the slicing view (view/util.py 388–435)
-/

namespace TFMA
namespace SlicingColumn

open Config

/-- view/util.py 411–417: the loop that picks the first model that is not a baseline. -/
def candidate : List ModelSpec → Option ModelSpec
  | [] => none
  | spec :: rest => if !spec.isBaseline then some spec else candidate rest

/-- view/util.py 405–426 (metrics/example_count.py 25, metrics/weighted_example_count.py 18,
post_export_metrics/metric_keys.py 26–31, 66–67): the column that is used unless another one is asked for. -/
def defaultColumn (config : EvalConfig) : String :=
  let column := if !config.metricsSpecs.isEmpty then "example_count" else "post_export_metrics/example_count"
  match candidate config.modelSpecs with
  | none => column
  | some spec =>
    if spec.exampleWeightKey ≠ "" then
      if !config.metricsSpecs.isEmpty then "weighted_example_count" else "post_export_metrics/example_weight"
    else column

/-- view/util.py 389–431 `get_slicing_config`: the value of `weightedExamplesColumn`. -/
def slicingColumn (config : EvalConfig) (use : Option String) : String :=
  match use with
  | some name => if name ≠ "" then name else defaultColumn config
  | none => defaultColumn config

end SlicingColumn
end TFMA
