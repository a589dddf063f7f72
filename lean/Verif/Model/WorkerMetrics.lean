import Verif.Py.Basic

/-!
# Keras metrics on workers

metrics/tf_metric_wrapper.py 315–355 and 545–556: the metrics and losses of a combiner travel to the workers as configs and the names
of their classes, and are built anew there.
-/

namespace TFMA
namespace WorkerMetrics

variable {κ : Type}

/-- A python class: the module and the name it is defined under. Classes that differ here are different classes; a class defined twice
under the same name is not modelled. -/
structure Cls where
  module : String
  name : String
  deriving DecidableEq, Repr

/-- A metric or a loss: its class and its config. -/
structure Metric (κ : Type) where
  cls : Cls
  isLoss : Bool
  config : κ
  deriving DecidableEq, Repr

/-- What surrounds the code. -/
structure Env (κ : Type) where
  /-- `tf_keras.metrics.__name__`, `tf_keras.losses.__name__` (metrics/tf_metric_wrapper.py 340–341) -/
  kerasModules : List String
  /-- `getattr(importlib.import_module(module), name)` (metrics/tf_metric_wrapper.py 353–354); none is AttributeError -/
  find : String → String → Option Cls
  /-- the name Keras serializes a class under: `package>name` if it was registered with a package -/
  keyName : Cls → String
  /-- the classes registered with Keras in the worker -/
  registered : Dict String Cls
  /-- the classes of `tf_keras.metrics` and of `tf_keras.losses` -/
  metrics : Dict String Cls
  losses : Dict String Cls
  /-- `cfg["config"]["name"]` (metrics/metric_util.py 146–153) -/
  nameOf : κ → Option String
  /-- metrics/metric_util.py 215–216 `_camel_case` -/
  camel : String → String

/-- metrics/tf_metric_wrapper.py 332–346 `_custom_objects`, for the lists of metrics by output. -/
def customObjects (env : Env κ) (outputs : List (String × List (Metric κ))) : List (String × String) :=
  outputs.flatMap fun o => o.2.filterMap fun m =>
    if env.kerasModules.contains m.cls.module then none else some (m.cls.module, m.cls.name)

/-- metrics/tf_metric_wrapper.py 349–355 `_load_custom_objects`, from the classes loaded so far. -/
def loadCustomObjects (env : Env κ) : List (String × String) → Dict String Cls → Except Err (Dict String Cls)
  | [], acc => .ok acc
  | (module, name) :: rest, acc =>
    match env.find module name with
    | none => .error .attributeError
    | some c => loadCustomObjects env rest (acc.set name c)

/-- metrics/metric_util.py 135–154 `serialize_metric`, 157–176 `serialize_loss`: the class name; the config is kept. -/
def serialName (env : Env κ) (m : Metric κ) : String :=
  if env.keyName m.cls = (if m.isLoss then "LossFunctionWrapper" else "MeanMetricWrapper") then
    match env.nameOf m.config with
    | some n => env.camel n
    | none => env.keyName m.cls
  else env.keyName m.cls

/-- metrics/metric_util.py 179–190 `deserialize_metric`, `deserialize_loss`: Keras takes the class from the custom objects, the classes
registered with it or its own, in this order, and builds it from the config; ValueError for an unknown class. -/
def deserialize (env : Env κ) (scope : Dict String Cls) (isLoss : Bool) (cfg : String × κ) : Except Err (Metric κ) :=
  match (scope.get? cfg.1).or ((env.registered.get? cfg.1).or ((if isLoss then env.losses else env.metrics).get? cfg.1)) with
  | none => .error .valueError
  | some c => .ok ⟨c, isLoss, cfg.2⟩

/-- metrics/tf_metric_wrapper.py 315–329 `_deserialize_metrics`, `_deserialize_losses`. -/
def deserializeAll (env : Env κ) (scope : Dict String Cls) (isLoss : Bool) : List (String × κ) → Except Err (List (Metric κ))
  | [] => .ok []
  | cfg :: rest =>
    match deserialize env scope isLoss cfg with
    | .error e => .error e
    | .ok m =>
      match deserializeAll env scope isLoss rest with
      | .error e => .error e
      | .ok ms => .ok (m :: ms)

/-- The configs of the metrics, or of the losses, of an output. (metrics/tf_metric_wrapper.py 304–311) -/
def configs (env : Env κ) (isLoss : Bool) (ms : List (Metric κ)) : List (String × κ) :=
  (ms.filter fun m => m.isLoss == isLoss).map fun m => (serialName env m, m.config)

/-- metrics/tf_metric_wrapper.py 551–556: the loop over the outputs. -/
def rebuildOutputs (env : Env κ) (scope : Dict String Cls) : List (String × List (Metric κ)) → Except Err (List (String × List (Metric κ)))
  | [] => .ok []
  | (o, ms) :: rest =>
    match deserializeAll env scope false (configs env false ms) with
    | .error e => .error e
    | .ok metrics =>
      match deserializeAll env scope true (configs env true ms) with
      | .error e => .error e
      | .ok losses =>
        match rebuildOutputs env scope rest with
        | .error e => .error e
        | .ok rs => .ok ((o, metrics ++ losses) :: rs)

/-- metrics/tf_metric_wrapper.py 545–556 `setup` for the custom objects of 136. All the metrics are taken to have the same sub key
(`setup` is per sub key, 144–161, the custom objects are those of all). -/
def rebuild (env : Env κ) (outputs : List (String × List (Metric κ))) : Except Err (List (String × List (Metric κ))) :=
  match loadCustomObjects env (customObjects env outputs) [] with
  | .error e => .error e
  | .ok scope => rebuildOutputs env scope outputs

end WorkerMetrics
end TFMA
