import Verif.Py.Basic

/-!
# Assembly of the evaluation pipeline

api/model_eval_lib.py (default extractors and evaluators, `ExtractAndEvaluate`, `WriteResults`, `ExtractEvaluateAndWriteResults`) and
evaluators/evaluator.py (`verify_evaluator`).

A collection of extracts is a value of type `X`, the output of an evaluator is a dictionary of collections of type `P`.  A `PTransform` is
the function from collections to collections that it stands for.  While a pipeline is built Beam keeps the labels of the transforms it has
applied and raises `RuntimeError` if a label is used twice (apache_beam/pipeline.py `Pipeline.apply`, 'A transform with label ... already
exists'); this list of labels is threaded through the definitions.
-/

namespace TFMA.Pipeline

/-- extractors/extractor.py 33–35 `Extractor`. -/
structure Extractor (X : Type) where
  stageName : String
  apply : X → X

/-- evaluators/evaluator.py 28–31 `Evaluator`. -/
structure Evaluator (X P : Type) where
  stageName : String
  runAfter : Option String
  apply : X → Dict String P

/-- extractors/extractor.py 24 `LAST_EXTRACTOR_STAGE_NAME`. -/
def lastStage : String := "<last-extractor>"

variable {X P : Type}

/-- evaluators/evaluator.py 41–61 `verify_evaluator`. -/
def verifyEvaluator (v : Evaluator X P) (xs : List (Extractor X)) : Except Err Unit :=
  match v.runAfter with
  | none => .ok ()
  | some s =>
    if s ≠ "" ∧ s ≠ lastStage ∧ ¬ xs.any (fun x => x.stageName == s) then .error .valueError else .ok ()

/-- Beam's check of a label (see the head of this file). -/
def useLabel (label : String) (labels : List String) : Except Err (List String) :=
  if label ∈ labels then .error .runtimeError else .ok (labels ++ [label])

/-- What is known while the pipeline is built: the labels used so far, and the outputs of the evaluators for each key. -/
abbrev Built (P : Type) := List String × Dict String (List P)

/-- api/model_eval_lib.py 892–897 `update`. -/
def update (evaluation : Dict String (List P)) : List (String × P) → Dict String (List P)
  | [] => evaluation
  | (k, v) :: rest => update (Dict.set evaluation k ((Dict.get? evaluation k).getD [] ++ [v])) rest

/-- api/model_eval_lib.py 902–904, 907–909 and 910–912: the evaluators for which `now` holds are applied to the extracts. -/
def evaluate (now : Option String → Bool) (extracts : X) : List (Evaluator X P) → Built P → Except Err (Built P)
  | [], b => .ok b
  | v :: vs, b =>
    if now v.runAfter then
      match useLabel v.stageName b.1 with
      | .error e => .error e
      | .ok labels => evaluate now extracts vs (labels, update b.2 (v.apply extracts))
    else evaluate now extracts vs b

/-- api/model_eval_lib.py 905–909: the loop over the extractors. -/
def extractLoop (vs : List (Evaluator X P)) : List (Extractor X) → X → Built P → Except Err (X × Built P)
  | [], extracts, b => .ok (extracts, b)
  | x :: xs, extracts, b =>
    match useLabel x.stageName b.1 with
    | .error e => .error e
    | .ok labels =>
      match evaluate (fun r => r == some x.stageName) (x.apply extracts) vs (labels, b.2) with
      | .error e => .error e
      | .ok b' => extractLoop vs xs (x.apply extracts) b'

/-- api/model_eval_lib.py 915–928: outputs of a key with several values are flattened and combined (`_CombineEvaluationDictionariesFn`,
Model/EvaluationDicts); `combine` is this transform. -/
def mergeOutputs (combine : List P → P) : List (String × List P) → List String → Except Err (Dict String P)
  | [], _ => .ok []
  | (k, v) :: rest, labels =>
    match v with
    | [p] =>
      match mergeOutputs combine rest labels with
      | .error e => .error e
      | .ok d => .ok ((k, p) :: d)
    | _ =>
      match useLabel ("FlattenEvaluationOutput(" ++ k ++ ")") labels with
      | .error e => .error e
      | .ok l1 =>
        match useLabel ("CombineEvaluationOutput(" ++ k ++ ")") l1 with
        | .error e => .error e
        | .ok l2 =>
          match mergeOutputs combine rest l2 with
          | .error e => .error e
          | .ok d => .ok ((k, combine v) :: d)

/-- api/model_eval_lib.py 882–930 `ExtractAndEvaluate`. -/
def extractAndEvaluate (combine : List P → P) (extracts : X) (xs : List (Extractor X)) (vs : List (Evaluator X P)) :
    Except Err (Dict String P) :=
  match evaluate (fun r => r == none || r == some "") extracts vs (["TrackInputBytes"], []) with
  | .error e => .error e
  | .ok b =>
    match extractLoop vs xs extracts b with
    | .error e => .error e
    | .ok (extracts', b') =>
      match evaluate (fun r => r == some lastStage) extracts' vs b' with
      | .error e => .error e
      | .ok (labels, evaluation) => mergeOutputs combine evaluation labels

/-! ## Defaults -/

/-- The extractors that `default_extractors` chooses from. -/
inductive Stage where
  | features | transformedFeatures | labels | exampleWeights | predictions | materializedPredictions | tflitePredictions
  | tfjsPredictions | custom | sqlSliceKeys | unbatch | sliceKeys
deriving DecidableEq

/-- The names of the stages (the `..._STAGE_NAME` constants of the modules in extractors/); the name of a custom extractor is its own. -/
def stageName (custom : String) : Stage → String
  | .features => "ExtractFeatures"
  | .transformedFeatures => "ExtractTransformedFeatures"
  | .labels => "ExtractLabels"
  | .exampleWeights => "ExtractExampleWeights"
  | .predictions => "ExtractPredictions"
  | .materializedPredictions => "ExtractMaterializedPredictions"
  | .tflitePredictions => "ExtractTFLitePredictions"
  | .tfjsPredictions => "ExtractTFJSPredictions"
  | .custom => custom
  | .sqlSliceKeys => "ExtractSqlSliceKeys"
  | .unbatch => "ExtractUnbatchedInputs"
  | .sliceKeys => "ExtractSliceKeys"

/-- constants.py 20–46 `VALID_TF_MODEL_TYPES`. -/
def validTypes : List String :=
  ["tfma_eval", "tf_generic", "tf_estimator", "tf_keras", "tf_lite", "tf_js", "materialized_prediction"]

/-- `model_types == {t}` for the set of the types. -/
def onlyType (types : List String) (t : String) : Bool := types.all (· == t) && types.contains t

/-- api/model_eval_lib.py 568–581: `sql` is `_has_sql_slices` (510–515) of the configuration. -/
def slicingStages (sql : Bool) : List Stage := (if sql then [.sqlSliceKeys] else []) ++ [.unbatch, .sliceKeys]

/-- api/model_eval_lib.py 518–680 `default_extractors`.  `types` are the model types of the verified models, `none` without models;
`custom` says that there is a custom predict extractor; `sliceSpec` and `config` that the arguments of these names are used.  The
configuration is taken with its defaults filled in (557–558, Model/Config). -/
def defaultExtractors (types : Option (List String)) (custom sql sliceSpec config : Bool) : Except Err (List Stage) :=
  if sliceSpec && config then .error .valueError
  else
    match types with
    | none => .ok ([.features, .labels, .exampleWeights, .materializedPredictions] ++ slicingStages sql)
    | some types =>
      if ¬ types.all (fun t => validTypes.contains t) ∧ ¬ custom then .error .notImplementedError
      else if onlyType types "materialized_prediction" then
        .ok ([.features, .labels, .exampleWeights, .materializedPredictions] ++ slicingStages sql)
      else if onlyType types "tf_lite" then
        .ok ([.features, .transformedFeatures, .labels, .exampleWeights, if custom then .custom else .tflitePredictions] ++ slicingStages sql)
      else if types.contains "tf_lite" then .error .notImplementedError
      else if onlyType types "tf_js" then
        .ok ([.features, .labels, .exampleWeights, if custom then .custom else .tfjsPredictions] ++ slicingStages sql)
      else if types.contains "tf_js" then .error .notImplementedError
      else
        .ok ([.features] ++ (if custom then [] else [.transformedFeatures]) ++
          [.labels, .exampleWeights, if custom then .custom else .predictions] ++ slicingStages sql)

/-- api/model_eval_lib.py 727–741: whether `default_evaluators` returns the evaluator of metrics and plots, for the values of
`disabled_outputs`; otherwise it returns no evaluator. -/
def defaultEvaluator (disabled : List String) : Bool :=
  ! (disabled.contains "metrics" && disabled.contains "plots" && disabled.contains "attributions")

/-- writers/eval_config_writer.py 200–202: whether the configuration is written. -/
def writesConfig (disabled : List String) : Bool := ! disabled.contains "eval_config"

/-- evaluators/metrics_plots_and_validations_evaluator.py 72–128: the evaluator of metrics and plots, `apply` is its transform. -/
def metricsEvaluator (apply : X → Dict String P) : Evaluator X P :=
  { stageName := "EvaluateMetricsAndPlots", runAfter := some "ExtractSliceKeys", apply := apply }

/-- api/model_eval_lib.py 976–1000 `WriteResults`: the evaluation that is handed to all writers. -/
def writeResults (evaluation : Dict String P) : Except Err (Dict String P) :=
  if evaluation = [] then .error .valueError else .ok evaluation

/-- api/model_eval_lib.py 1190–1191: the loop that verifies the evaluators. -/
def verifyAll (xs : List (Extractor X)) : List (Evaluator X P) → Except Err Unit
  | [] => .ok ()
  | v :: vs => match verifyEvaluator v xs with
    | .error e => .error e
    | .ok () => verifyAll xs vs

/-- What a user passes to `ExtractEvaluateAndWriteResults`, with the transforms that the stages stand for. -/
structure Setup (X P : Type) where
  /-- Types of the models, if there are any. -/
  types : Option (List String)
  /-- Some slicing spec of the configuration has a SQL query. -/
  sql : Bool
  /-- `options.disabled_outputs` of the configuration. -/
  disabled : List String
  /-- Extractors that are passed, `[]` for none. -/
  extractors : List (Extractor X)
  /-- Evaluators that are passed, `[]` for none. -/
  evaluators : List (Evaluator X P)
  /-- The transforms of the default extractors. -/
  stage : Stage → X → X
  /-- The transform of the default evaluator. -/
  metrics : X → Dict String P
  /-- `_CombineEvaluationDictionariesFn` -/
  combine : List P → P

/-- api/model_eval_lib.py 1170–1177: the extractors that are used. -/
def usedExtractors (s : Setup X P) : Except Err (List (Extractor X)) :=
  if s.extractors ≠ [] then .ok s.extractors
  else (defaultExtractors s.types false s.sql false true).map fun l => l.map fun t => ⟨stageName "" t, s.stage t⟩

/-- api/model_eval_lib.py 1179–1186: the evaluators that are used. -/
def usedEvaluators (s : Setup X P) : List (Evaluator X P) :=
  if s.evaluators ≠ [] then s.evaluators
  else if defaultEvaluator s.disabled then [metricsEvaluator s.metrics] else []

/-- api/model_eval_lib.py 1168–1227 `ExtractEvaluateAndWriteResults` once there is a verified configuration: the evaluation that is written
by the writers. -/
def extractEvaluateAndWrite (s : Setup X P) (extracts : X) : Except Err (Dict String P) :=
  match usedExtractors s with
  | .error e => .error e
  | .ok xs =>
    match verifyAll xs (usedEvaluators s) with
    | .error e => .error e
    | .ok () =>
      match extractAndEvaluate s.combine extracts xs (usedEvaluators s) with
      | .error e => .error e
      | .ok evaluation => writeResults evaluation

/-! ## Inputs -/

/-- What may be read: a serialized example, a record batch, or a dictionary of extracts. -/
inductive Input (V : Type) where
  | serialized (v : V)
  | recordBatch (v : V)
  | extracts (d : Dict String V)

variable {V : Type}

/-- api/model_eval_lib.py 92–126 `_is_legacy_eval`, with a configuration that is present, as it is when this is called at 1205. -/
def isLegacy (configVersion : Option Nat) : Bool := configVersion == some 1

/-- api/model_eval_lib.py 1142–1152: the version of the configuration, and whether there is one: without a configuration one is made from
the models, which raises if there are none (`for shared_model in eval_shared_models` with `None`). -/
def configVersion (config : Bool) (types : Option (List String)) (given : Option Nat) : Except Err (Option Nat) :=
  if config then .ok (some (given.getD 2))
  else match types with
    | none => .error .typeError
    | some _ => .ok (some (given.getD 1))

/-- api/model_eval_lib.py 837–855 `InputsToExtracts` and `BatchedInputsToExtracts`; 1205–1208. -/
def toExtracts (legacy : Bool) : Input V → Dict String V
  | .extracts d => d
  | .serialized v => [(if legacy then "input" else "arrow_record_batch", v)]
  | .recordBatch v => [(if legacy then "input" else "arrow_record_batch", v)]

/-- extractors/features_extractor.py 172–199 `extract_features`: `read` makes the features of a record batch from the features that are
there and the batch, and the serialized examples (or none). -/
def extractFeatures (read : Option V → V → V × V) (extracts : Dict String V) : Except Err (Dict String V) :=
  match Dict.get? extracts "arrow_record_batch" with
  | some batch =>
    let result := Dict.del extracts "arrow_record_batch"
    let (features, inputs) := read (Dict.get? result "features") batch
    .ok (Dict.set (Dict.set result "features" features) "input" inputs)
  | none => if Dict.has extracts "features" then .ok extracts else .error .valueError

end TFMA.Pipeline
