import Verif.Model.Config
import Verif.Model.EvalResults
import Verif.Model.Pipeline
import Verif.Model.ResultFiles

/-!
# The top level functions

api/model_eval_lib.py: `default_eval_shared_model`, `run_model_analysis`, `single_model_analysis`, `multiple_model_analysis`,
`multiple_data_analysis` and `analyze_raw_data`, with the default writers and `load_eval_result`.  The pipeline between the configuration and
the outputs is a parameter (its stages are Model/Pipeline), and so is the conversion of loaded records (Model/EvalResults).
-/

namespace TFMA
namespace TopLevel

open Config

/-! ### The shared model -/

/-- utils/model_util.py 136–145 `get_model_spec`. -/
def modelSpec (specs : List ModelSpec) (name : String) : Option ModelSpec :=
  match specs with
  | [s] => if name = "" then some s else if s.name = name then some s else none
  | specs => specs.find? fun s => s.name == name

/-- utils/model_util.py 170–209 `get_model_type` for a model spec; `keras` says that the path is one of a Keras model.  The signature that is
looked up at the end is not used, and neither are the tags. -/
def modelType (keras : String → Bool) (spec : ModelSpec) (path : String) (_tags : Option (List String)) : String :=
  if spec.modelType ≠ "" then spec.modelType
  else if path ≠ "" ∧ keras path then "tf_keras"
  else "tf_generic"

/-- The arguments of `default_eval_shared_model` that are used here (api/model_eval_lib.py 396–410). -/
structure ModelArgs where
  path : String
  includeDefaultMetrics : Bool := true
  weightKey : WeightKey := .none
  tags : Option (List String) := none
  modelName : String := ""
  config : Option EvalConfig := none
  customLoader : Bool := false
  rubberStamp : Bool := false

/-- api/model_eval_lib.py 446–455: type and tags without a configuration. -/
def legacyType (tags : Option (List String)) : String × List String :=
  (if (tags.getD []).contains "eval" then "tfma_eval"
    else if (tags.getD []).contains "serve" then "tf_estimator"
    else "tfma_eval",
    tags.getD ["eval"])

/-- api/model_eval_lib.py 473–477: the weights of the model spec replace the argument. -/
def specWeights (spec : ModelSpec) (given : WeightKey) : WeightKey :=
  if spec.exampleWeightKey ≠ "" then .key spec.exampleWeightKey
  else if spec.exampleWeightKeys ≠ [] then .keys spec.exampleWeightKeys
  else given

/-- api/model_eval_lib.py 481–507 and api/types.py 596–637: the model, which cannot be a rubber stamped baseline. -/
def build (a : ModelArgs) (baseline : Bool) (type : String) (tags : List String) (weights : WeightKey) (include_ : Bool) :
    Except Err SharedModel :=
  if baseline && a.rubberStamp then .error .valueError
  else .ok { modelName := a.modelName, isBaseline := baseline, rubberStamp := a.rubberStamp, modelPath := some a.path, modelType := type,
             weightKey := weights, includeDefaultMetrics := include_,
             loaderTags := if !a.customLoader && Pipeline.validTypes.contains type then some tags else none }

/-- api/model_eval_lib.py 395–507 `default_eval_shared_model`. -/
def defaultSharedModel (keras : String → Bool) (a : ModelArgs) : Except Err SharedModel :=
  match a.config with
  | none => build a false (legacyType a.tags).1 (legacyType a.tags).2 a.weightKey a.includeDefaultMetrics
  | some config => match modelSpec config.modelSpecs a.modelName with
    | none => .error .valueError
    | some spec =>
      let type := modelType keras spec a.path a.tags
      build a spec.isBaseline type (a.tags.getD [if type = "tfma_eval" then "eval" else "serve"]) (specWeights spec a.weightKey)
        (config.options.includeDefaultMetrics.getD a.includeDefaultMetrics)

/-! ### The configuration -/

/-- api/model_eval_lib.py 137–150: the model spec of a model. -/
def defaultSpec (m : SharedModel) : ModelSpec :=
  match m.weightKey with
  | .none => { name := m.modelName }
  | .key k => { name := m.modelName, exampleWeightKey := k }
  | .keys d => { name := m.modelName, exampleWeightKeys := d }

/-- The deprecated arguments of `run_model_analysis` (api/model_eval_lib.py 1240–1243); the slices are given by their specs. -/
structure Deprecated where
  slices : List Slicer.Spec := []
  writeConfig : Bool := true
  intervals : Bool := false
  minSliceSize : ℤ := 1

/-- api/model_eval_lib.py 129–161 `_default_eval_config`. -/
def defaultConfig (ms : List SharedModel) (d : Deprecated) : EvalConfig :=
  { modelSpecs := ms.map defaultSpec
    slicingSpecs := d.slices
    options := { computeConfidenceIntervals := d.intervals, minSliceSize := some d.minSliceSize,
                 disabledOutputs := if d.writeConfig then [] else ["eval_config"] } }

/-- api/model_eval_lib.py 1300–1316: the configuration of a run and its version. -/
def configOf (models : SharedModels) (config : Option EvalConfig) (d : Deprecated) : Except Err (EvalConfig × ℕ) :=
  match config with
  | some c => (updateForModels models c).map fun c => (c, 2)
  | none => match verifySharedModels models with
    | .error e => .error e
    | .ok none => .error .typeError
    | .ok (some ms) => .ok (defaultConfig ms d, 1)

/-! ### Writing and loading -/

/-- api/model_eval_lib.py 796–804: the locations of the models. -/
def locationsOf (models : Option (List SharedModel)) : Dict String String :=
  match models with
  | none => [("", "<unknown>")]
  | some ms => ms.foldl (fun d m => Dict.set d m.modelName (m.modelPath.getD "<unknown>")) []

/-- What is loaded for a model; `κ` is the type of configurations and `ω` the type of converted records. (view/view_types.py 107–186) -/
structure Result (κ ω : Type) where
  metrics : List ω
  plots : List ω
  attributions : List ω
  config : Option κ
  dataLocation : String
  fileFormat : String
  modelLocation : String

/-- The conversions of records for a model: `view_util.convert_metrics_proto_to_dict` and the other two, over all the records.
(api/model_eval_lib.py 355–377) -/
structure View (ρ ω : Type) where
  metrics : Option String → List ρ → Except Err (List ω)
  plots : Option String → List ρ → Except Err (List ω)
  attributions : Option String → List ρ → Except Err (List ω)

variable {ρ κ ω : Type}

/-- What `load_eval_run` finds in a directory (writers/eval_config_writer.py 61–116). -/
def runLocations : Option (ResultFiles.EvalRun κ) → EvalResults.Locations
  | some run => .run run.modelLocations
  | none => .run []

/-- api/model_eval_lib.py 331–392 `load_eval_result` with the default format, of results with a configuration in JSON (`loadConfig`) or none. -/
def loadEvalResult (v : View ρ ω) (dir : ResultFiles.Dir ρ κ) (model : Option String) : Except Err (Result κ ω) := do
  let run ← ResultFiles.loadConfig dir "json" none
  let metrics ← ResultFiles.loadRecords dir "metrics".toList "tfrecord"
  let metrics ← v.metrics model metrics
  let plots ← ResultFiles.loadRecords dir "plots".toList "tfrecord"
  let plots ← v.plots model plots
  let attributions ← ResultFiles.loadRecords dir "attributions".toList "tfrecord"
  let attributions ← v.attributions model attributions
  let location ← (runLocations run).lookup model
  return ⟨metrics, plots, attributions, run.map fun r => r.config, (run.map fun r => r.dataLocation).getD "",
    (run.map fun r => r.fileFormat).getD "", location⟩

/-- The run of a pipeline: the outputs for a verified configuration, the models and the version of the configuration (`is_batched_input` at
1205 depends on it). (api/model_eval_lib.py 1168–1227) -/
abbrev Evaluation (ρ : Type) := EvalConfig → Option (List SharedModel) → ℕ → Except Err (ResultFiles.Outputs ρ)

/-- What the default config writer is given (api/model_eval_lib.py 799–813). -/
def configArgs (config : EvalConfig) (models : Option (List SharedModel)) (data format : Option String) : ResultFiles.ConfigArgs EvalConfig :=
  { config := config, disabled := config.options.disabledOutputs, dataLocation := data, dataFileFormat := format,
    modelLocations := some (locationsOf models) }

/-- api/model_eval_lib.py 1142–1227 `ExtractEvaluateAndWriteResults` with a configuration; `written` is what the default writers are given as
the configuration and its display information. -/
def evaluateAndWrite (evaluate : Evaluation ρ) (tfmaVersion : String) (models : SharedModels) (config : EvalConfig) (version : ℕ)
    (written : EvalConfig → Option (List SharedModel) → ResultFiles.ConfigArgs EvalConfig) (dir : ResultFiles.Dir ρ EvalConfig) :
    Except Err (ResultFiles.Dir ρ EvalConfig) := do
  let ms ← verifySharedModels models
  let config ← updateForModels models config
  verify config false
  let outputs ← evaluate config ms version
  ResultFiles.writeRun tfmaVersion (written config ms) "tfrecord" outputs dir

/-- What `run_model_analysis` returns. -/
inductive Returned (κ ω : Type) where
  | one (r : Result κ ω)
  | several (rs : List (Result κ ω))

/-- api/model_eval_lib.py 1377–1380: the results of the model specs. -/
def loadAll (v : View ρ ω) (dir : ResultFiles.Dir ρ κ) : List ModelSpec → Except Err (List (Result κ ω))
  | [] => .ok []
  | s :: rest => do
    let r ← loadEvalResult v dir (some s.name)
    let rs ← loadAll v dir rest
    return r :: rs

/-- api/model_eval_lib.py 1230–1381 `run_model_analysis` with the default writers, to a directory. -/
def runModelAnalysis (evaluate : Evaluation ρ) (v : View ρ ω) (tfmaVersion : String) (models : SharedModels) (config : Option EvalConfig)
    (d : Deprecated) (data format : String) (dir : ResultFiles.Dir ρ EvalConfig) :
    Except Err (Returned EvalConfig ω × ResultFiles.Dir ρ EvalConfig) := do
  let (config, version) ← configOf models config d
  if format ≠ "tfrecords" ∧ format ≠ "text" then throw .valueError
  let dir ← evaluateAndWrite evaluate tfmaVersion models config version (fun c ms => configArgs c ms (some data) (some format)) dir
  if config.modelSpecs.length ≤ 1 then
    let r ← loadEvalResult v dir none
    return (.one r, dir)
  else
    let rs ← loadAll v dir config.modelSpecs
    return (.several rs, dir)

/-! ### Convenience functions -/

/-- The arguments of `single_model_analysis` (api/model_eval_lib.py 1384–1390) other than the locations and the output path. -/
structure SingleArgs where
  config : Option EvalConfig := none
  slices : List Slicer.Spec := []

/-- api/model_eval_lib.py 1384–1433 `single_model_analysis`, to a directory. -/
def singleModelAnalysis (evaluate : String → Evaluation ρ) (v : View ρ ω) (keras : String → Bool) (tfmaVersion : String) (a : SingleArgs)
    (path data : String) (dir : ResultFiles.Dir ρ EvalConfig) : Except Err (Returned EvalConfig ω × ResultFiles.Dir ρ EvalConfig) := do
  if a.slices ≠ [] ∧ a.config.isSome then throw .valueError
  let config := if a.slices ≠ [] then some { slicingSpecs := a.slices } else a.config
  let m ← defaultSharedModel keras { path := path }
  runModelAnalysis (evaluate data) v tfmaVersion (.single m) config {} data "tfrecords" dir

/-- api/model_eval_lib.py 1436–1457 and 1460–1481, the loops of `multiple_model_analysis` and `multiple_data_analysis`: `run` is
`single_model_analysis` for the model and the data of one step.  `shared` is the directory of the argument `output_path`; without it
every run has a new one. -/
def runEach {α R D : Type} [EmptyCollection D] (run : α → D → Except Err (R × D)) (shared : Option D) : List α → Except Err (List R)
  | [] => .ok []
  | x :: rest => do
    let (r, dir) ← run x (shared.getD ∅)
    let rs ← runEach run (shared.map fun _ => dir) rest
    return r :: rs

/-! ### Data frames -/

/-- `model_spec.prediction_key or "prediction"` and the like (api/model_eval_lib.py 1574–1575). -/
def orText (k d : String) : String := if k = "" then d else k

/-- api/model_eval_lib.py 1573–1585: the model specs get default keys, whose columns must exist. -/
def fillKeys (columns : List String) : List ModelSpec → Except Err (List ModelSpec)
  | [] => .ok []
  | s :: rest =>
    let s := { s with predictionKey := orText s.predictionKey "prediction", labelKey := orText s.labelKey "label" }
    if ¬ columns.contains s.predictionKey then .error .keyError
    else if ¬ columns.contains s.labelKey then .error .keyError
    else (fillKeys columns rest).map (s :: ·)

/-- api/model_eval_lib.py 1484–1626 `analyze_raw_data` with the default writers.  The field `slicing_specs` is never None.  Without a
configuration there is no attribute `model_specs`. -/
def analyzeRawData (evaluate : Evaluation ρ) (v : View ρ ω) (tfmaVersion : String) (columns : List String) (config : Option EvalConfig)
    (dir : ResultFiles.Dir ρ EvalConfig) : Except Err (Result EvalConfig ω × ResultFiles.Dir ρ EvalConfig) := do
  match config with
  | none => throw .attributeError
  | some config =>
    let specs ← fillKeys columns config.modelSpecs
    let config := { config with modelSpecs := specs }
    let dir ← evaluateAndWrite evaluate tfmaVersion .none config 2 (fun _ _ => configArgs config none none none) dir
    let r ← loadEvalResult v dir none
    return (r, dir)

end TopLevel
end TFMA
