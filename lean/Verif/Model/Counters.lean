import Verif.Model.Queries
import Mathlib.Data.List.Dedup

/-!
# Counters of a pipeline

evaluators/counter_util.py and the counters of slicer/slicer_lib.py 666–723: how many metrics, slices and examples were computed.

A counter is the list of the names it was incremented under: its value is how often its name occurs, whoever incremented it and in
whatever order.
-/

namespace TFMA
namespace Counters

variable {ν : Type} [DecidableEq ν] {σ : Type}

/-- A slice key: columns and values. Values are equal as in python (1 is 1.0). (slicer/slicer_lib.py 44–52) -/
abbrev Slice (ν : Type) := List (String × ν)

/-- slicer/slicer_lib.py 680–697 `_FanoutSlicesDoFn.process`: the slices an example comes out under, for the slice keys it has; the
order of the set is some order. -/
def fanOut (examples : List (List (Slice ν))) : List (List (Slice ν)) := examples.map List.dedup

/-- slicer/slicer_lib.py 696: the counter `post_slice_num_instances`. -/
def instances (examples : List (List (Slice ν))) : ℕ := ((fanOut examples).map List.length).sum

/-- `beam.Distinct` (slicer/slicer_lib.py 720) and the keys of `Count.PerElement`
(evaluators/metrics_plots_and_validations_evaluator.py 853–857): every element once, in some order. -/
def Distinct {β : Type} (xs ys : List β) : Prop := ys.Nodup ∧ ∀ x, x ∈ ys ↔ x ∈ xs

/-- slicer/slicer_lib.py 705–723 `_TrackDistinctSliceKeys`: the counter `num_distinct_slice_keys` for the distinct slice keys. -/
def numDistinct (keys : List (Slice ν)) : ℕ := keys.length

/-- evaluators/counter_util.py 67–69. -/
def sliceName (text : ν → String) (p : String × ν) : String := "slice_computed_" ++ p.1 ++ "_" ++ text p.2

/-- evaluators/counter_util.py 57–79 `IncrementSliceSpecCounters`, for the keys of the counts per slice. -/
def sliceIncrements (text : ν → String) (keys : List (Slice ν)) : List String := keys.flatMap fun k => k.map (sliceName text)

/-- evaluators/counter_util.py 25–32 `_IncrementMetricsCounters`. -/
def metricName (name version modelType : String) : String := "metric_computed_" ++ name ++ "_" ++ version ++ "_" ++ modelType

/-- evaluators/counter_util.py 82–102 `IncrementMetricsSpecsCounters`; a spec is the list of the class names of its metrics. -/
def metricIncrements (types : List String) (specs : List (List String)) : List String :=
  types.flatMap fun t => specs.flatMap fun s => s.map fun c => metricName c "v2" t

/-- evaluators/metrics_plots_and_validations_evaluator.py 1067–1073 `_get_model_types_for_logging`, for the types of the models;
`MODEL_AGNOSTIC` is in constants.py. -/
def typesForLogging (models : List String) : List String :=
  if models.isEmpty then ["model_agnostic"] else models.dedup

/-- evaluators/metrics_plots_and_validations_evaluator.py 859–864 in the evaluations of 1023–1052, which hand over the models only if
their metrics are included (1043–1045). -/
def evaluationIncrements (queryKeyOf : σ → String) (metricsOf : σ → List String) (empty : σ) (option : Option Bool)
    (models : List String) (specs : List σ) : List String :=
  (Queries.jobs queryKeyOf empty option specs).flatMap fun j =>
    metricIncrements (typesForLogging (if j.includeDefault then models else [])) (j.specs.map metricsOf)

end Counters
end TFMA
