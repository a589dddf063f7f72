import Verif.Model.Evaluate
import Verif.Model.Aggregation

/-!
# From metrics specs to computations and thresholds

metrics/metric_specs.py 113–161, 571–730 and 733–1206, metrics/metric_util.py 1176–1232, metrics/metric_types.py 745–819.

Only TFMA metrics are modelled (a spec has no Keras metrics).  A metric is one built with `merge_per_key_computations`: a function
that creates the computations for one model, output and sub key.  Serialized protos used as hashes are compared as values.
-/

namespace TFMA
namespace MetricSpecs

open MetricKeys Evaluate

/-! ### Configuration -/

/-- config.proto 295–318 `BinarizationOptions`: the values of the three lists. -/
structure Binarize where
  classIds : List ℤ := []
  kList : List ℤ := []
  topKList : List ℤ := []

/-- config.proto 242–265: the member of the oneof that is set to true. -/
inductive AggKind where
  | micro | macroAvg | weighted
  deriving DecidableEq, Repr

/-- config.proto 241–289 `AggregationOptions`; `topK` is `none` if the message top_k_list is absent. -/
structure Aggregate where
  kind : Option AggKind := none
  classWeights : Dict ℤ ℚ := []
  topK : Option (List ℤ) := none

/-- The fields of config.proto `ModelSpec` that concern weights. -/
structure WeightSpec where
  name : String := ""
  exampleWeightKey : String := ""
  exampleWeightKeys : Dict String String := []

/-- config.proto `MetricThreshold`: value threshold and change threshold, each possibly absent. -/
structure Threshold (T : Type) where
  value : Option T := none
  change : Option T := none

/-- What a metric is created for: the arguments with which metric_util.py 1224–1230 calls the function of the metric. -/
structure Call where
  name : String
  model : String
  output : String
  subKey : Option SubKey
  aggregation : Option AggregationType
  classWeights : Option (Dict ℤ ℚ)
  exampleWeighted : Bool
  queryKey : String

/-- config.proto `MetricConfig` with the metric it describes (metric_types.py 840–930): `config` stands for the serialized
configuration, `create` for the function of the metric, the flags for the names of its arguments.  `thresholds` are the threshold
(no slice) and the thresholds per slice and cross slice of the configuration. -/
structure Metric (B S T : Type) where
  name : String
  config : String
  classWeightsArg : Bool := true
  exampleWeightedArg : Bool := true
  create : Call → Except Err (List (Computation B))
  thresholds : List (Option S × Threshold T) := []

/-- config.proto `MetricsSpec`.  `weights` is `none` if example_weights is absent, otherwise its fields weighted and unweighted.
`thresholds` are those given by metric name (with a slice or cross slice, if any). -/
structure Spec (B S T : Type) where
  metrics : List (Metric B S T) := []
  modelNames : List String := []
  outputNames : List String := []
  outputWeights : Dict String ℚ := []
  binarize : Option Binarize := none
  aggregate : Option Aggregate := none
  weights : Option (Bool × Bool) := none
  queryKey : String := ""
  thresholds : List (String × Option S × Threshold T) := []

variable {B S T : Type}

/-- `spec.model_names or [""]`, `spec.output_names or [""]`. (metrics/metric_specs.py 580–581) -/
def orEmpty (l : List String) : List String := if l.isEmpty then [""] else l

/-! ### Example weights -/

/-- utils/model_util.py 137–146 `get_model_spec`. -/
def getModelSpec (models : List WeightSpec) (name : String) : Option WeightSpec :=
  if models.length = 1 ∧ name = "" then models.head? else models.find? fun m => decide (m.name = name)

/-- metric_specs.py 127–135 `has_example_weight_key`. -/
def hasWeightKey (outputs : List String) (m : WeightSpec) : Bool :=
  if m.exampleWeightKey ≠ "" then true else outputs.any fun o => Dict.has m.exampleWeightKeys o

/-- metric_specs.py 113–146 `_example_weighted_default`. -/
def weightedDefault (models : List WeightSpec) (s : Spec B S T) : Bool :=
  if s.modelNames.isEmpty then models.any (hasWeightKey s.outputNames)
  else s.modelNames.any fun n => match getModelSpec models n with
    | some m => hasWeightKey s.outputNames m
    | none => false

/-- metric_specs.py 148–161 `_example_weight_options`. -/
def weightOptions (models : List WeightSpec) (s : Spec B S T) : List Bool :=
  match s.weights with
  | none => [weightedDefault models s]
  | some (w, u) => (if w then [true] else []) ++ (if u then [false] else [])

/-! ### Sub keys -/

/-- Loop that stops at the first error. (python loop) -/
def mapE {α β : Type} (f : α → Except Err β) : List α → Except Err (List β)
  | [] => .ok []
  | x :: xs =>
    match f x with
    | .error e => .error e
    | .ok y => match mapE f xs with
      | .error e => .error e
      | .ok ys => .ok (y :: ys)

/-- `for x in xs: result.extend(f(x))`. (python loop) -/
def flatMapE {α β : Type} (f : α → Except Err (List β)) : List α → Except Err (List β)
  | [] => .ok []
  | x :: xs =>
    match f x with
    | .error e => .error e
    | .ok y => match flatMapE f xs with
      | .error e => .error e
      | .ok ys => .ok (y ++ ys)

/-- metric_specs.py 1185–1195 `_aggregation_type`. -/
def aggregationType (a : Aggregate) : Option AggregationType :=
  match a.kind with
  | some .micro => some ⟨some true, none, none⟩
  | some .macroAvg => some ⟨none, some true, none⟩
  | some .weighted => some ⟨none, none, some true⟩
  | none => none

/-- metric_specs.py 1132–1144: the sub keys of the binarization. -/
def binarizeKeys (b : Binarize) : Except Err (List (Option SubKey)) := do
  let c ← mapE (fun v => SubKey.new (some v) none none) b.classIds
  let k ← mapE (fun v => SubKey.new none (some v) none) b.kList
  let t ← mapE (fun v => SubKey.new none none (some v)) b.topKList
  return (c ++ k ++ t).map some

/-- metric_specs.py 1146–1150: the sub keys of the aggregation. -/
def aggregateKeys (a : Aggregate) : Except Err (List (Option SubKey)) := do
  let t ← mapE (fun v => SubKey.new none none (some v)) (a.topK.getD [])
  return if t.isEmpty then [none] else t.map some

/-- Sub keys per aggregation type. (metrics/metric_specs.py 1127–1131) -/
abbrev SubKeys := Dict (Option AggregationType) (List (Option SubKey))

/-- metric_specs.py 1132–1144: what `_create_sub_keys` stores for the binarization. -/
def binarizePart (b : Option Binarize) : Except Err SubKeys :=
  match b with
  | none => .ok []
  | some b => match binarizeKeys b with
    | .error e => .error e
    | .ok ks => .ok (if ks.isEmpty then [] else [(none, ks)])

/-- metric_specs.py 1127–1152 `_create_sub_keys`: note that an aggregation without type is stored under None like the binarization. -/
def createSubKeys (s : Spec B S T) : Except Err SubKeys :=
  match binarizePart s.binarize with
  | .error e => .error e
  | .ok r => match s.aggregate with
    | none => .ok (if r.isEmpty then [(none, [none])] else r)
    | some a => match aggregateKeys a with
      | .error e => .error e
      | .ok ks => .ok (Dict.set r (aggregationType a) ks)

/-- metric_specs.py 1198–1206 `_class_weights`. -/
def classWeights (s : Spec B S T) : Except Err (Option (Dict ℤ ℚ)) :=
  let a := s.aggregate.getD {}
  if a.topK.isSome then
    if a.classWeights.isEmpty then .ok none else .error .valueError
  else .ok (if a.classWeights.isEmpty then none else some a.classWeights)

/-- metric_specs.py 1155–1182 `_macro_average_sub_keys`. -/
def macroSubKeys (sk : Option SubKey) (cw : Option (Dict ℤ ℚ)) : Except Err (List (Option SubKey)) :=
  match sk with
  | none =>
    match cw with
    | none => .error .valueError
    | some d => if d.isEmpty then .error .valueError
      else (mapE (fun e : ℤ × ℚ => SubKey.new (some e.1) none none) d).map (List.map some)
  | some s =>
    match s.topK with
    | none => .error .valueError
    | some t => if t = 0 then .error .valueError
      else (mapE (fun i : ℕ => SubKey.new none (some ((i : ℤ) + 1)) none) (List.range t.toNat)).map (List.map some)

/-- `aggregation_type and (aggregation_type.macro_average or aggregation_type.weighted_macro_average)`.
(metrics/metric_specs.py 852–855, 1092–1095) -/
def isMacro (agg : Option AggregationType) : Bool :=
  match agg with
  | none => false
  | some a => decide (a.macroAvg = some true ∨ a.weightedMacro = some true)

/-! ### Computations -/

/-- What a computation does: the metric's own work, or one of the aggregations of metrics/aggregation.py with its arguments. -/
inductive Body (B : Type) where
  | own (b : B)
  | labelWeights (ids : List ℤ)
  | macroAverage (name model output : String) (subKeys : List (Option SubKey)) (cw : Option (Dict ℤ ℚ)) (ew : Bool)
  | weightedMacroAverage (name model output : String) (subKeys : List (Option SubKey)) (cw : Option (Dict ℤ ℚ)) (ew : Bool)
  | outputAverage (name model : String) (subKey : Option SubKey) (weights : Dict String ℚ) (ew : Bool)

/-- The computations of a metric as computations of the evaluation. (metrics/metric_specs.py 1110–1123) -/
def Body.lift (c : Computation B) : Computation (Body B) :=
  { kind := c.kind, className := c.className, keys := c.keys, preprocessors := c.preprocessors, body := .own c.body }

/-- metric_specs.py 1382–1390 `_private_tfma_metric`. -/
def privateName (name : String) : String :=
  match name.toList with
  | '_' :: _ => name
  | _ => "_" ++ name

/-- metric_types.py 787–819 `validate_and_update_create_computations_fn_kwargs`: the errors. -/
def validateArgs (m : Metric B S T) (c : Call) : Except Err Unit :=
  if m.classWeightsArg = false ∧ Aggregation.noWeights c.classWeights = false then .error .valueError
  else if m.exampleWeightedArg = false ∧ c.exampleWeighted = true then .error .valueError
  else .ok ()

/-- metric_util.py 1181–1230 `merge_computations_fn`: the computations of a metric for all models, outputs and sub keys. -/
def metricComputations (m : Metric B S T) (name : String) (models outputs : List String) (subKeys : List (Option SubKey))
    (agg : Option AggregationType) (cw : Option (Dict ℤ ℚ)) (ew : Bool) (query : String) : Except Err (List (Computation (Body B))) :=
  flatMapE (fun model => flatMapE (fun output => flatMapE (fun sk =>
    let c : Call := ⟨name, model, output, sk, agg, cw, ew, query⟩
    match validateArgs m c with
    | .error e => .error e
    | .ok () => (m.create c).map (List.map Body.lift)) subKeys) outputs) models

/-- metric_specs.py 1091: the class weights, for aggregations only. -/
def weightsFor (s : Spec B S T) (agg : Option AggregationType) : Except Err (Option (Dict ℤ ℚ)) :=
  if agg.isSome then classWeights s else .ok none

/-- metric_specs.py 1090–1123: the computations of a metric for one aggregation type of a spec; `shared` are the sub keys of the
binarization. -/
def aggregationComputations (models : List WeightSpec) (m : Metric B S T) (s : Spec B S T) (shared : List (Option SubKey))
    (agg : Option AggregationType) (sks : List (Option SubKey)) : Except Err (List (Computation (Body B))) := do
  let cw ← weightsFor s agg
  if isMacro agg then do
    let ks ← flatMapE (fun sk => macroSubKeys sk cw) sks
    let updated := ks.filter fun k => !decide (k ∈ shared)
    if updated.isEmpty then .ok []
    else flatMapE (fun ew => metricComputations m (privateName m.name) (orEmpty s.modelNames) (orEmpty s.outputNames) updated none
      none ew s.queryKey) (weightOptions models s)
  else
    flatMapE (fun ew => metricComputations m m.name (orEmpty s.modelNames) (orEmpty s.outputNames) sks agg
      (if Aggregation.noWeights cw then none else cw) ew s.queryKey) (weightOptions models s)

/-- metric_specs.py 1077–1123: the computations of a metric for one spec. -/
def specComputations (models : List WeightSpec) (m : Metric B S T) (s : Spec B S T) : Except Err (List (Computation (Body B))) := do
  let subs ← createSubKeys s
  let shared := (Dict.get? subs none).getD []
  flatMapE (fun e => aggregationComputations models m s shared e.1 e.2) subs

/-- metric_specs.py 1051–1067: the metrics by configuration, each with the specs that use it; the first metric of a configuration is
kept. -/
def byConfig (specs : List (Spec B S T)) : Dict String (Metric B S T × List (Spec B S T)) :=
  specs.foldl (fun d s => s.metrics.foldl (fun d m => match Dict.get? d m.config with
    | none => Dict.set d m.config (m, [s])
    | some (m', ss) => Dict.set d m.config (m', ss ++ [s])) d) []

/-- metric_specs.py 1039–1124 `_process_tfma_metrics_specs`. -/
def processSpecs (models : List WeightSpec) (specs : List (Spec B S T)) : Except Err (List (Computation (Body B))) :=
  flatMapE (fun e => flatMapE (specComputations models e.2.1) e.2.2) (byConfig specs)

/-- The key of the class weights. (metrics/aggregation.py 23, 278–314) -/
def labelWeightsKey (model output : String) (ew : Bool) : MetricKey :=
  { name := "_class_weights_from_labels", modelName := model, outputName := output, exampleWeighted := some ew }

/-- metrics/aggregation.py 278–314 `_class_weights_from_labels`. -/
def labelWeights (ids : List ℤ) (model output : String) (ew : Bool) : Computation (Body B) :=
  { kind := .metric, className := "_ClassWeightsFromLabelsCombiner", keys := [labelWeightsKey model output ew], body := .labelWeights ids }

/-- metrics/aggregation.py 80–157 `macro_average`, the computation. -/
def macroComputation (name model output : String) (sk : Option SubKey) (sks : List (Option SubKey)) (cw : Dict ℤ ℚ) (ew : Bool) :
    Computation (Body B) :=
  { kind := .derived, className := "function", keys := [Aggregation.macroKey name model output sk ew],
    body := .macroAverage name model output sks (some cw) ew }

/-- metrics/aggregation.py 160–264 `weighted_macro_average`, the computations. -/
def weightedComputations (name model output : String) (sk : Option SubKey) (sks : List (Option SubKey)) (cw : Dict ℤ ℚ) (ew : Bool) :
    List (Computation (Body B)) :=
  [labelWeights (sks.filterMap fun k => k.bind SubKey.classId) model output ew,
   { kind := .derived, className := "function", keys := [Aggregation.weightedMacroKey name model output sk ew],
     body := .weightedMacroAverage name model output sks (some cw) ew }]

/-- metrics/aggregation.py 26–77 `output_average`, the computation. -/
def outputComputation (name model : String) (sk : Option SubKey) (weights : Dict String ℚ) (ew : Bool) : Computation (Body B) :=
  { kind := .derived, className := "function",
    keys := [{ name := name, modelName := model, subKey := sk, exampleWeighted := some ew }],
    body := .outputAverage name model sk weights ew }

/-- metric_specs.py 852–897: the aggregations of one metric. -/
def metricAggregations (s : Spec B S T) (ew : Bool) (agg : Option AggregationType) (model : String) (sk : Option SubKey)
    (m : Metric B S T) : Except Err (List (Computation (Body B))) := do
  let avg ← match agg with
    | none => .ok []
    | some a =>
      if isMacro agg then do
        let cw ← classWeights s
        let cw := cw.getD []
        flatMapE (fun output => do
          let sks ← macroSubKeys sk (some cw)
          return if a.macroAvg = some true then [macroComputation m.name model output sk sks cw ew]
            else weightedComputations m.name model output sk sks cw ew) (orEmpty s.outputNames)
      else .ok []
  return avg ++ if s.outputWeights.isEmpty then [] else [outputComputation m.name model sk s.outputWeights ew]

/-- metric_specs.py 837–897: the aggregations of one spec. -/
def specAggregations (models : List WeightSpec) (s : Spec B S T) : Except Err (List (Computation (Body B))) :=
  flatMapE (fun ew => do
    let subs ← createSubKeys s
    flatMapE (fun e =>
      if s.outputWeights.any fun o => !decide (o.1 ∈ orEmpty s.outputNames) then .error .valueError
      else flatMapE (fun model => flatMapE (fun sk => flatMapE (metricAggregations s ew e.1 model sk) s.metrics) e.2)
        (orEmpty s.modelNames)) subs) (weightOptions models s)

/-- metric_specs.py 733–899 `to_computations`. -/
def toComputations (models : List WeightSpec) (specs : List (Spec B S T)) : Except Err (List (Computation (Body B))) := do
  let a ← processSpecs models specs
  let b ← flatMapE (specAggregations models) specs
  return a ++ b

/-! ### Thresholds -/

/-- metric_specs.py 571–591 `_keys_for_metric`. -/
def keysForMetric (name : String) (s : Spec B S T) (agg : Option AggregationType) (sks : List (Option SubKey))
    (ews : List (Option Bool)) : List MetricKey :=
  (orEmpty s.modelNames).flatMap fun model => (orEmpty s.outputNames).flatMap fun output => sks.flatMap fun sk =>
    ews.map fun ew => { name := name, modelName := model, outputName := output, subKey := sk, aggregationType := agg, exampleWeighted := ew }

/-- metric_specs.py 594–612 `keys_and_metrics_from_specs`. -/
def keysAndMetrics (models : List WeightSpec) (specs : List (Spec B S T)) : Except Err (List (MetricKey × Metric B S T)) :=
  flatMapE (fun s => do
    let subs ← createSubKeys s
    return subs.flatMap fun e => s.metrics.flatMap fun m =>
      (keysForMetric m.name s e.1 e.2 ((weightOptions models s).map some)).map fun k => (k, m)) specs

/-- Thresholds per key. (metrics/metric_specs.py 635–638) -/
abbrev Thresholds (S T : Type) := Dict MetricKey (List (Option S × T))

/-- metric_specs.py 645–669 `add_if_not_exists` (a value and a change threshold never meet under the same key, `is_diff` differs). -/
def addIfNotExists [DecidableEq S] [DecidableEq T] (d : Thresholds S T) (k : MetricKey) (sl : Option S) (t : T) : Thresholds S T :=
  let old := (Dict.get? d k).getD []
  if (sl, t) ∈ old then d else Dict.set d k (old ++ [(sl, t)])

/-- metric_specs.py 671–683 `add_threshold`. -/
def addThreshold [DecidableEq S] [DecidableEq T] (d : Thresholds S T) (k : MetricKey) (e : Option S × Threshold T) : Thresholds S T :=
  let d := match e.2.value with
    | some t => addIfNotExists d k e.1 t
    | none => d
  match e.2.change with
  | some t => addIfNotExists d k.makeDiffKey e.1 t
  | none => d

/-- metric_specs.py 687–715: the thresholds of a spec by metric name. -/
def specThresholds (s : Spec B S T) : Except Err (List (MetricKey × Option S × Threshold T)) := do
  let subs ← createSubKeys s
  return subs.flatMap fun e => s.thresholds.flatMap fun t => (keysForMetric t.1 s e.1 e.2 [none]).map fun k => (k, t.2)

/-- metric_specs.py 635–730 `metric_thresholds_from_metrics_specs`. -/
def metricThresholds [DecidableEq S] [DecidableEq T] (models : List WeightSpec) (specs : List (Spec B S T)) :
    Except Err (Thresholds S T) := do
  let a ← flatMapE specThresholds specs
  let b ← keysAndMetrics models specs
  let b := b.flatMap fun e => e.2.thresholds.map fun t => (e.1, t)
  return (a ++ b).foldl (fun d e => addThreshold d e.1 e.2) []

end MetricSpecs
end TFMA
