import Verif.Py.Basic
import Verif.Model.Validation

/-!
# Model of utils/config_util.py and of the model list helpers of utils/model_util.py

Protocol buffers are structures: an unset message field is `none`, a map is a dictionary. Line numbers without file refer to
/repo/tensorflow_model_analysis/utils/config_util.py.
-/

namespace TFMA
namespace Config

open Validation (Direction)

/-- proto/config.proto 22–150 `ModelSpec`; the fields that config_util.py does not look at are kept in `rest`. -/
structure ModelSpec where
  name : String := ""
  labelKey : String := ""
  labelKeys : Dict String String := []
  predictionKey : String := ""
  predictionKeys : Dict String String := []
  exampleWeightKey : String := ""
  exampleWeightKeys : Dict String String := []
  isBaseline : Bool := false
  modelType : String := ""
  rest : String := ""
deriving DecidableEq

/-- proto/config.proto 409–415 `GenericValueThreshold`. -/
structure ValueThreshold where
  lower : Option Fl
  upper : Option Fl
deriving DecidableEq

/-- proto/config.proto 396–404 `GenericChangeThreshold`. -/
structure ChangeThreshold where
  absolute : Option Fl
  relative : Option Fl
  direction : Direction
deriving DecidableEq

/-- `change_threshold.ByteSize() != 0`: a wrapper that is set takes bytes even if it holds zero, the enum value 0 takes none.
(utils/config_util.py 270–290) -/
def ChangeThreshold.hasBytes (t : ChangeThreshold) : Bool :=
  t.absolute.isSome || t.relative.isSome || decide (t.direction ≠ .unknown)

/-- proto/config.proto 417–424 `MetricThreshold`: two independent oneofs with one field each. -/
structure MetricThreshold where
  value : Option ValueThreshold := none
  change : Option ChangeThreshold := none
deriving DecidableEq

/-- `threshold.ByteSize() != 0`: a field that is set takes bytes even if it is empty.
(utils/config_util.py 207–226) -/
def MetricThreshold.hasBytes (t : MetricThreshold) : Bool := t.value.isSome || t.change.isSome

/-- `threshold.change_threshold.ByteSize()`: reading an unset field gives an empty message.
(utils/config_util.py 270–290) -/
def MetricThreshold.changeBytes (t : MetricThreshold) : Bool := match t.change with
  | some c => c.hasBytes
  | none => false

/-- proto/config.proto 426–447 `PerSliceMetricThreshold` and `CrossSliceMetricThreshold`: a list of specs of type `S` and a
threshold. -/
structure SliceThreshold (S : Type) where
  specs : List S
  threshold : Option MetricThreshold
deriving DecidableEq

/-- proto/config.proto 426–436 `PerSliceMetricThreshold`. -/
abbrev PerSlice := SliceThreshold Slicer.Spec
/-- proto/config.proto 443–447 `CrossSliceMetricThreshold`. -/
abbrev CrossSlice := SliceThreshold (Slicer.Spec × List Slicer.Spec)

/-- proto/config.proto 454–478 `MetricConfig`. -/
structure MetricConfig where
  className : String := ""
  moduleName : String := ""
  config : String := ""
  threshold : Option MetricThreshold := none
  perSlice : List PerSlice := []
  crossSlice : List CrossSlice := []

/-- proto/config.proto 480–534 `MetricsSpec`; the fields that config_util.py does not look at are kept in `rest`. -/
structure MetricsSpec where
  metrics : List MetricConfig := []
  modelNames : List String := []
  thresholds : Dict String MetricThreshold := []
  perSlice : Dict String (List PerSlice) := []
  crossSlice : Dict String (List CrossSlice) := []
  rest : String := ""

/-- proto/config.proto 554–562. -/
inductive CIMethod where
  | unknown
  | poissonBootstrap
  | jackknife
deriving DecidableEq

/-- proto/config.proto 537–552 `Options`: an unset wrapper reads as false. -/
structure Options where
  computeConfidenceIntervals : Bool := false
  method : CIMethod := .unknown
  includeDefaultMetrics : Option Bool := none
  minSliceSize : Option ℤ := none
  disabledOutputs : List String := []
  rest : String := ""
deriving DecidableEq

/-- proto/config.proto 565–598 `EvalConfig`. -/
structure EvalConfig where
  modelSpecs : List ModelSpec := []
  slicingSpecs : List Slicer.Spec := []
  crossSlicingSpecs : List (Slicer.Spec × List Slicer.Spec) := []
  metricsSpecs : List MetricsSpec := []
  options : Options := {}

/-! ## verify_eval_config -/

/-- 36–50. -/
def verifyKeys (spec : ModelSpec) : Except Err Unit :=
  if spec.labelKey ≠ "" ∧ spec.labelKeys ≠ [] then .error .valueError
  else if spec.predictionKey ≠ "" ∧ spec.predictionKeys ≠ [] then .error .valueError
  else if spec.exampleWeightKey ≠ "" ∧ spec.exampleWeightKeys ≠ [] then .error .valueError
  else .ok ()

/-- 51 `spec.name in eval_config.model_specs`: a string is compared with messages, which is never equal. -/
def nameInSpecs (_name : String) (_specs : List ModelSpec) : Bool := false

/-- 35–62: the specs by name and the baseline. -/
def verifySpecs (all : List ModelSpec) : List ModelSpec → Dict String ModelSpec → Option ModelSpec →
    Except Err (Dict String ModelSpec × Option ModelSpec)
  | [], byName, baseline => .ok (byName, baseline)
  | spec :: specs, byName, baseline =>
    match verifyKeys spec with
    | .error e => .error e
    | .ok _ =>
      if nameInSpecs spec.name all then .error .valueError
      else if spec.isBaseline then
        match baseline with
        | some _ => .error .valueError
        | none => verifySpecs all specs (Dict.set byName spec.name spec) (some spec)
      else verifySpecs all specs (Dict.set byName spec.name spec) baseline

/-- 76–92: a per slice threshold without slicing specs. -/
def emptyPerSlice (spec : MetricsSpec) : Bool :=
  spec.perSlice.any (fun p => p.2.any fun t => t.specs.isEmpty) ||
    spec.metrics.any (fun m => m.perSlice.any fun t => t.specs.isEmpty)

/-- 24–92 `verify_eval_config`. -/
def verify (config : EvalConfig) (baselineRequired : Bool) : Except Err Unit :=
  if config.modelSpecs = [] then .error .valueError
  else match verifySpecs config.modelSpecs config.modelSpecs [] none with
    | .error e => .error e
    | .ok (byName, baseline) =>
      if byName.length > 1 ∧ Dict.has byName "" then .error .valueError
      else if baselineRequired ∧ baseline = none then .error .valueError
      else if config.metricsSpecs.any emptyPerSlice then .error .valueError
      else .ok ()

/-! ## update_eval_config_with_defaults -/

/-- `threshold.change_threshold.ByteSize()` for a threshold field. (utils/config_util.py 270–290) -/
def changeBytes (t : Option MetricThreshold) : Bool := match t with
  | some t => t.changeBytes
  | none => false

/-- 257–289 `has_change_threshold`. -/
def hasChangeThreshold (config : EvalConfig) : Bool :=
  config.metricsSpecs.any fun spec =>
    (spec.metrics.any fun m => changeBytes m.threshold || m.perSlice.any (fun t => changeBytes t.threshold) ||
      m.crossSlice.any (fun t => changeBytes t.threshold)) ||
    spec.thresholds.any (fun p => p.2.changeBytes) ||
    spec.perSlice.any (fun p => p.2.any fun t => changeBytes t.threshold) ||
    spec.crossSlice.any (fun p => p.2.any fun t => changeBytes t.threshold)

/-- 207–208: `if threshold.ByteSize(): threshold.ClearField("change_threshold")`. -/
def MetricThreshold.clearChange (t : MetricThreshold) : MetricThreshold :=
  if t.hasBytes then { t with change := none } else t

/-- 209–214. -/
def SliceThreshold.clearChange {S : Type} (t : SliceThreshold S) : SliceThreshold S :=
  { t with threshold := t.threshold.map MetricThreshold.clearChange }

/-- 206–214. -/
def MetricConfig.clearChange (m : MetricConfig) : MetricConfig :=
  { m with
    threshold := m.threshold.map MetricThreshold.clearChange
    perSlice := m.perSlice.map SliceThreshold.clearChange
    crossSlice := m.crossSlice.map SliceThreshold.clearChange }

/-- 205–225. -/
def MetricsSpec.clearChange (spec : MetricsSpec) : MetricsSpec :=
  { spec with
    metrics := spec.metrics.map MetricConfig.clearChange
    thresholds := spec.thresholds.map fun p => (p.1, p.2.clearChange)
    perSlice := spec.perSlice.map fun p => (p.1, p.2.map SliceThreshold.clearChange)
    crossSlice := spec.crossSlice.map fun p => (p.1, p.2.map SliceThreshold.clearChange) }

/-- 178–187: a single spec without a name becomes candidate and baseline. -/
def addBaseline (specs : List ModelSpec) : List ModelSpec := match specs with
  | [s] => if s.name = "" then [{ s with name := "candidate" }, { s with name := "baseline", isBaseline := true }] else [s]
  | specs => specs

/-- 239–246: the name of a single spec is dropped. -/
def dropSingleName (specs : List ModelSpec) : List ModelSpec := match specs with
  | [s] => [{ s with name := "" }]
  | specs => specs

/-- 247–252. -/
def fixModelNames (modelNames : List String) (spec : MetricsSpec) : MetricsSpec :=
  if spec.modelNames = [] then { spec with modelNames := modelNames }
  else if modelNames.length = 1 then { spec with modelNames := [""] }
  else spec

/-- 149–156. -/
def defaultMethod (o : Options) : Options :=
  if o.computeConfidenceIntervals ∧ o.method = .unknown then { o with method := .jackknife } else o

/-- The arguments of `update_eval_config_with_defaults`; for the flags other than `has_baseline` None is the same as False.
(utils/config_util.py 95–101) -/
structure Args where
  maybeAdd : Bool := false
  maybeRemove : Bool := false
  hasBaseline : Option Bool := some false
  rubberStamp : Bool := false

/-- 171–175. -/
def Args.adds (a : Args) : Bool := a.maybeAdd || a.hasBaseline == some true

/-- 171–175. -/
def Args.removes (a : Args) : Bool := a.maybeRemove || a.hasBaseline == some false

/-- 139, 157–170: the errors. -/
def Args.check (a : Args) (config : EvalConfig) : Except Err Unit :=
  if a.hasBaseline ≠ some true ∧ hasChangeThreshold config ∧ ¬ a.rubberStamp then .error .runtimeError
  else if a.maybeAdd ∧ a.maybeRemove then .error .valueError
  else if (a.maybeAdd ∨ a.maybeRemove) ∧ a.hasBaseline = some true then .error .valueError
  else .ok ()

/-- 178–204, 233–234: the model specs before their names are looked at. -/
def newSpecs (a : Args) (specs : List ModelSpec) : List ModelSpec :=
  let specs := if a.adds then addBaseline specs else specs
  let specs := if a.removes then specs.filter fun s => !s.isBaseline else specs
  if specs = [] then [{}] else specs

/-- 95–254 `update_eval_config_with_defaults`. -/
def update (a : Args) (config : EvalConfig) : Except Err EvalConfig :=
  match a.check config with
  | .error e => .error e
  | .ok _ =>
    let specs := dropSingleName (newSpecs a config.modelSpecs)
    let metricsSpecs := if a.removes then config.metricsSpecs.map MetricsSpec.clearChange else config.metricsSpecs
    .ok { config with
      options := defaultMethod config.options
      modelSpecs := specs
      metricsSpecs := metricsSpecs.map (fixModelNames (specs.map ModelSpec.name)) }

/-! ## The list of models -/

/-- The `example_weight_key` of a model: nothing, one key, or keys by output. (api/types.py 531) -/
inductive WeightKey where
  | none
  | key (k : String)
  | keys (d : Dict String String)
deriving DecidableEq

/-- api/types.py 520–637 `EvalSharedModel`: the fields used here; `loaderTags` are the tags of the default model loader, or none if there
is another loader or none at all. -/
structure SharedModel where
  modelName : String
  isBaseline : Bool
  rubberStamp : Bool
  modelPath : Option String := .none
  modelType : String := ""
  weightKey : WeightKey := .none
  includeDefaultMetrics : Bool := true
  loaderTags : Option (List String) := .none
deriving DecidableEq

/-- What may be passed as `eval_shared_model`. (api/types.py 640–650) -/
inductive SharedModels where
  | none
  | single (m : SharedModel)
  | list (ms : List SharedModel)
  | dict (d : Dict String SharedModel)

/-- utils/model_util.py 237–246. -/
def namedFromDict : List (String × SharedModel) → Except Err (List SharedModel)
  | [] => .ok []
  | (k, v) :: rest =>
    if v.modelName ≠ "" ∧ k ≠ "" ∧ k ≠ v.modelName then .error .valueError
    else match namedFromDict rest with
      | .error e => .error e
      | .ok l => .ok ((if v.modelName = "" ∧ k ≠ "" then { v with modelName := k } else v) :: l)

/-- utils/model_util.py 252–266. -/
def normalizeNames (ms : List SharedModel) : Except Err (List SharedModel) :=
  if ms.length > 1 then if ms.any (fun m => m.modelName == "") then .error .valueError else .ok ms
  else .ok (ms.map fun m => { m with modelName := "" })

/-- utils/model_util.py 212–266 `verify_and_update_eval_shared_models`. -/
def verifySharedModels : SharedModels → Except Err (Option (List SharedModel))
  | .none => .ok none
  | .single m => (normalizeNames [m]).map some
  | .list [] => .ok none
  | .list ms => (normalizeNames ms).map some
  | .dict [] => .ok none
  | .dict d => match namedFromDict d with
    | .error e => .error e
    | .ok ms => (normalizeNames ms).map some

/-- utils/model_util.py 1128–1145 `has_rubber_stamp`. -/
def hasRubberStamp : Option (List SharedModel) → Except Err Bool
  | none => .ok false
  | some [m] => if m.isBaseline then .error .valueError else .ok m.rubberStamp
  | some ms => .ok (ms.all fun m => m.isBaseline || m.rubberStamp)

/-- api/model_eval_lib.py 174–187 `_update_eval_config_with_defaults`: the updated configuration for given models. -/
def updateForModels (models : SharedModels) (config : EvalConfig) : Except Err EvalConfig :=
  match verifySharedModels models with
  | .error e => .error e
  | .ok ms => match hasRubberStamp ms with
    | .error e => .error e
    | .ok stamp => update { hasBaseline := ms.map fun l => decide (l.length > 1), rubberStamp := stamp } config

end Config
end TFMA
