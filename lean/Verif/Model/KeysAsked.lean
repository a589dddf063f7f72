import Verif.Model.Inputs

/-!
# The computations of metrics that take lists of models, outputs and sub keys

metrics/example_count.py, ndcg.py, query_statistics.py, min_label_position.py and sample_metrics.py: the functions that create the
computations, as `Metric.computations` (metrics/metric_types.py 891–919) calls them with the models, outputs and sub keys of a spec.

A computation is its keys with the model and output its combiner looks at.
-/

namespace TFMA
namespace KeysAsked

open MetricKeys Inputs

/-- A computation. (metrics/metric_types.py 583–640) -/
structure Comp where
  keys : List MetricKey
  model : String
  output : String

/-- `names or [""]`. (example_count.py 71–72) -/
def orBlank (names : Option (List String)) : List String :=
  match names with
  | none => [""]
  | some [] => [""]
  | some l => l

/-- `sub_keys or [None]`. (example_count.py 74) -/
def orNone (subKeys : Option (List (Option SubKey))) : List (Option SubKey) :=
  match subKeys with
  | none => [none]
  | some [] => [none]
  | some l => l

/-- example_count.py 62–103 `example_count`. -/
def exampleCount (name : String) (models outputs : Option (List String)) (subKeys : Option (List (Option SubKey)))
    (weighted : Bool) : List Comp :=
  (orBlank models).flatMap fun m => (orBlank outputs).map fun o =>
    { keys := (orNone subKeys).map fun s =>
        { name := name, modelName := m, outputName := o, subKey := s, exampleWeighted := some weighted }
      model := m
      output := o }

/-- sample_metrics.py 64–102 `_fixed_size_sample`: one computation for all keys; its combiner looks at a feature only. -/
def fixedSizeSample (name : String) (models outputs : Option (List String)) (subKeys : Option (List (Option SubKey)))
    (weighted : Bool) : List Comp :=
  [{ keys := (orBlank models).flatMap fun m => (orBlank outputs).flatMap fun o => (orNone subKeys).map fun s =>
        { name := name, modelName := m, outputName := o, subKey := s, exampleWeighted := some weighted }
     model := ""
     output := "" }]

/-- ndcg.py 86–88: a top k is added unless some sub key has it. -/
def addTopK : List SubKey → List ℤ → List SubKey
  | subKeys, [] => subKeys
  | subKeys, k :: ks =>
    if subKeys.any fun s => s.topK = some k then addTopK subKeys ks
    else addTopK (subKeys ++ [⟨none, none, some k⟩]) ks

/-- ndcg.py 68–124 `_ndcg`; the loop of 82 fails if no list of sub keys is given, and `SubKey` refuses a top k below one
(metrics/metric_types.py 81–84). -/
def ndcg (name queryKey : String) (topKList : Option (List ℤ)) (models outputs : Option (List String))
    (subKeys : Option (List (Option SubKey))) (weighted : Bool) : Except Err (List Comp) :=
  if queryKey = "" then .error .valueError
  else match subKeys with
    | none => .error .typeError
    | some l =>
      if ((topKList.getD []).any fun k => decide (k < 1)) then .error .valueError
      else
        let subKeys := addTopK (l.filterMap id) (topKList.getD [])
        if subKeys.isEmpty || subKeys.any (fun s => s.topK.isNone) then .error .valueError
        else .ok ((orBlank models).flatMap fun m => (orBlank outputs).map fun o =>
          { keys := subKeys.map fun s =>
              { name := name, modelName := m, outputName := o, subKey := some s, exampleWeighted := some weighted }
            model := m
            output := o })

/-- min_label_position.py 55–94 `_min_label_position`; an empty list of names is not replaced. -/
def minLabelPosition (name queryKey : String) (models outputs : Option (List String)) (weighted : Bool) : Except Err (List Comp) :=
  if queryKey = "" then .error .valueError
  else .ok ((models.getD [""]).flatMap fun m => (outputs.getD [""]).map fun o =>
    { keys := [{ name := name, modelName := m, outputName := o, exampleWeighted := some weighted }], model := m, output := o })

/-- query_statistics.py 64–124 `_query_statistics` as it is called by `Metric.computations` (metrics/metric_types.py 787–820): there are no
arguments `model_names` and `output_names`, so that model and output keep their defaults. -/
def queryStatistics (names : List String) (queryKey : String) (_models _outputs : Option (List String)) (weighted : Bool) :
    Except Err (List Comp) :=
  if queryKey = "" then .error .valueError
  else .ok [{
    keys := names.map fun n => { name := n, modelName := "", outputName := "", exampleWeighted := some weighted }
    model := ""
    output := "" }]

/-- What the combiner of the query statistics asks of an example. (query_statistics.py 170–178) -/
def statisticsArgs (specs : List ModelSpec) (c : Comp) (weighted : Bool) : Args :=
  { specs := specs, model := c.model, output := c.output, exampleWeighted := weighted, flatten := false, singleWeight := true }

end KeysAsked
end TFMA
