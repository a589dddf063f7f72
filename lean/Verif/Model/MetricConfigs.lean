import Verif.Model.MetricSpecs

/-!
# Classes named by metric configs

`metrics/metric_specs.py`: how the `MetricConfig`s of a spec are turned into
metric objects (`metric_instance` for one of them, `to_computations` for all the
specs), and how metric objects are turned into `MetricConfig`s
(`config_from_metric`).

Simplifications, for the whole file: the `config` of a `MetricConfig` is taken as
the dictionary its JSON text stands for (`_metric_config`, 1250–1258, and
`json.dumps` are not modelled), so that the order of its entries means nothing;
`tf.float32` itself, which is no JSON value, is left out of the allowed data types.
-/

namespace TFMA.MetricConfigs
open TFMA

/-- A value of a metric's config: a JSON value. -/
inductive Val where
  | none
  | bool (b : Bool)
  | str (s : String)
  | num (n : Int)
  | list (l : List Int)
  deriving DecidableEq, Repr

/-- What a class is a subclass of, the question asked at metric_specs.py 551–563 and
779–787: a `tf_keras.metrics.Metric`, a `tf_keras.losses.Loss`, a
`metric_types.Metric` or none of these. -/
inductive Kind where
  | kerasMetric
  | kerasLoss
  | tfma
  | other
  deriving DecidableEq, Repr

/-- What the code under study is given by Python and Keras. `registered`:
`metric_types._METRIC_OBJECTS` (metric_types.py 918–936). `kerasMetrics` and
`kerasLosses`: the classes `tf_keras.metrics.deserialize` and
`tf_keras.losses.deserialize` find by name. `importFrom`:
`getattr(importlib.import_module(module), name)`. `accepts`: whether `from_config`
takes these settings. `snake`: the default name of a class
(`_maybe_add_name_to_config`, metric_specs.py 1264–1266). `camel`: `_camel_case`
(metric_util.py 213–214). `lossesModule`: `_TF_LOSSES_MODULE`. `className`,
`moduleOf` and `keyName`: `cls.__name__`, `cls.__module__` and
`tf_keras.utils.get_registered_name(cls)`. -/
structure World (Cls : Type) where
  registered : Dict String Cls
  kerasMetrics : Dict String Cls
  kerasLosses : Dict String Cls
  importFrom : String → String → Option Cls
  kind : Cls → Kind
  accepts : Cls → Dict String Val → Bool
  snake : String → String
  camel : String → String
  lossesModule : String
  className : Cls → String
  moduleOf : Cls → String
  keyName : Cls → String

/-- `config_pb2.MetricConfig`; a module not set is the empty text. -/
structure Config where
  className : String
  module : String
  params : Dict String Val
  deriving DecidableEq, Repr

/-- A metric object: its class and what its `get_config` returns. -/
structure Instance (Cls : Type) where
  cls : Cls
  params : Dict String Val
  deriving DecidableEq, Repr

variable {Cls : Type}

/-- `metric_util.deserialize_metric`, `deserialize_loss`, `deserialize_keras_object`
(metric_util.py 179–210): the class is looked for among the custom objects in scope
and then among those the Keras function knows; a class not found is a `ValueError`,
settings `from_config` does not take are a `TypeError`. -/
def deserialize (w : World Cls) (custom known : Dict String Cls) (name : String)
    (params : Dict String Val) : Except Err (Instance Cls) :=
  match custom.get? name with
  | some c => if w.accepts c params then .ok ⟨c, params⟩ else .error .typeError
  | none =>
    match known.get? name with
    | some c => if w.accepts c params then .ok ⟨c, params⟩ else .error .typeError
    | none => .error .valueError

/-- metric_specs.py 1261–1267 `_maybe_add_name_to_config`. -/
def addName (w : World Cls) (name : String) (params : Dict String Val) :
    Dict String Val :=
  if params.has "name" then params else params.set "name" (.str (w.snake name))

/-- metric_specs.py 1304–1313 `_deserialize_tf_metric`. -/
def deserializeTfMetric (w : World Cls) (cfg : Config) (custom : Dict String Cls) :
    Except Err (Instance Cls) :=
  deserialize w custom w.kerasMetrics cfg.className (addName w cfg.className cfg.params)

/-- metric_specs.py 1339–1348 `_deserialize_tf_loss`. -/
def deserializeTfLoss (w : World Cls) (cfg : Config) (custom : Dict String Cls) :
    Except Err (Instance Cls) :=
  deserialize w custom w.kerasLosses cfg.className (addName w cfg.className cfg.params)

/-- metric_specs.py 1368–1379 `_deserialize_tfma_metric`. -/
def deserializeTfma (w : World Cls) (cfg : Config) (custom : Dict String Cls) :
    Except Err (Instance Cls) :=
  deserialize w custom [] cfg.className cfg.params

/-- metric_specs.py 536–568 `metric_instance`, without classes of its own (the
registered ones are used). A class the module does not have is an
`AttributeError`. -/
def metricInstance (w : World Cls) (cfg : Config) : Except Err (Instance Cls) :=
  if w.registered.has cfg.className then deserializeTfma w cfg w.registered
  else if cfg.module = "" then deserializeTfMetric w cfg []
  else
    match w.importFrom cfg.module cfg.className with
    | none => .error .attributeError
    | some c =>
      match w.kind c with
      | .kerasMetric => deserializeTfMetric w cfg [(cfg.className, c)]
      | .kerasLoss => deserializeTfLoss w cfg [(cfg.className, c)]
      | .tfma => deserializeTfma w cfg [(cfg.className, c)]
      | .other => .error .notImplementedError

/-- The dictionaries `tf_metric_classes`, `tf_loss_classes` and
`tfma_metric_classes` of `to_computations` (metric_specs.py 745–752). -/
structure Classes (Cls : Type) where
  metrics : Dict String Cls
  losses : Dict String Cls
  tfma : Dict String Cls

/-- Lines 774–787: one config of a spec; true for the spec of TFMA metrics. -/
def classifyOne (w : World Cls) (st : Classes Cls) (cfg : Config) :
    Except Err (Bool × Classes Cls) :=
  if st.tfma.has cfg.className then .ok (true, st)
  else if cfg.module = "" then .ok (false, st)
  else
    match w.importFrom cfg.module cfg.className with
    | none => .error .attributeError
    | some c =>
      match w.kind c with
      | .kerasMetric => .ok (false, { st with metrics := st.metrics.set cfg.className c })
      | .kerasLoss => .ok (false, { st with losses := st.losses.set cfg.className c })
      | .tfma => .ok (true, { st with tfma := st.tfma.set cfg.className c })
      | .other => .ok (true, { st with tfma := st.tfma.set cfg.className c })

/-- Lines 774–787, for all the configs of a spec: the configs of `tf_spec`, those of
`tfma_spec` and the classes known afterwards. -/
def classify (w : World Cls) :
    Classes Cls → List Config → Except Err (List Config × List Config × Classes Cls)
  | st, [] => .ok ([], [], st)
  | st, cfg :: rest =>
    match classifyOne w st cfg with
    | .error e => .error e
    | .ok (toTfma, st') =>
      match classify w st' rest with
      | .error e => .error e
      | .ok (tf, tfma, st'') =>
        if toTfma then .ok (tf, cfg :: tfma, st'') else .ok (cfg :: tf, tfma, st'')

/-- Lines 794–802: an object of the spec of Keras metrics; losses are told by their
module. -/
def tfInstance (w : World Cls) (st : Classes Cls) (cfg : Config) :
    Except Err (Instance Cls) :=
  if cfg.module = w.lossesModule then deserializeTfLoss w cfg st.losses
  else deserializeTfMetric w cfg st.metrics

/-- Lines 764–816, for one spec: its configs, each with its object
(`per_spec_metric_configs` beside `per_spec_metric_instances`), those of Keras
first, and the classes known afterwards. -/
def specInstances (w : World Cls) (st : Classes Cls) (configs : List Config) :
    Except Err (List (Config × Instance Cls) × Classes Cls) :=
  match classify w st configs with
  | .error e => .error e
  | .ok (tf, tfma, st') =>
    match MetricSpecs.mapE (tfInstance w st') tf with
    | .error e => .error e
    | .ok a =>
      match MetricSpecs.mapE (fun cfg => deserializeTfma w cfg st'.tfma) tfma with
      | .error e => .error e
      | .ok b => .ok ((tf ++ tfma).zip (a ++ b), st')

/-- Lines 764–816 of `to_computations`: all the specs, from the classes known. -/
def instancesFrom (w : World Cls) :
    Classes Cls → List (List Config) → Except Err (List (List (Config × Instance Cls)))
  | _, [] => .ok []
  | st, spec :: rest =>
    match specInstances w st spec with
    | .error e => .error e
    | .ok (row, st') =>
      match instancesFrom w st' rest with
      | .error e => .error e
      | .ok rows => .ok (row :: rows)

/-- metric_specs.py 733–816: the metric objects of each spec in `to_computations`.
`registered_metrics()` is a copy, so nothing is registered by it. -/
def instances (w : World Cls) (specs : List (List Config)) :
    Except Err (List (List (Config × Instance Cls))) :=
  instancesFrom w ⟨[], [], w.registered⟩ specs

/-- metric_specs.py 71–88 `_UNSUPPORTED_TF_SETTINGS`: class name, setting, values
allowed. The names are as spelled in the code. -/
def unsupported : List (String × String × List Val) :=
  [("", "dtype", [.none, .str "float32"]),
   ("AUC", "multi_label", [.bool false]),
   ("AUC", "num_labels", [.none]),
   ("AUC", "label_weights", [.none]),
   ("AUC", "from_logits", [.bool false]),
   ("MeanAbsoluteError", "reduction", [.str "auto"]),
   ("MeanSquaredError", "reduction", [.str "auto"]),
   ("MeanAbsolutePercentageError", "reduction", [.str "auto"]),
   ("MeanSqauredLogarithmicError", "reduction", [.str "auto"]),
   ("BinaryCrossEntropy", "reduction", [.str "auto"]),
   ("CategoricalCrossEntropy", "reduction", [.str "auto"])]

/-- The rows of the table that concern a class: `not cls_name or cls_name == …`. -/
def settingsOf (name : String) : List (String × String × List Val) :=
  unsupported.filter fun r => r.1 == "" || r.1 == name

/-- metric_specs.py 1209–1219 `_is_supported_tf_metric`. -/
def isSupported (w : World Cls) (m : Instance Cls) : Bool :=
  w.registered.has (w.className m.cls) &&
    (settingsOf (w.className m.cls)).all fun r =>
      match m.params.get? r.2.1 with
      | none => true
      | some v => r.2.2.contains v

/-- metric_specs.py 1222–1247 `_remove_unsupported_tf_settings`: the module is not
kept. -/
def removeUnsupported (cfg : Config) : Config :=
  { className := cfg.className
    module := ""
    params := (settingsOf cfg.className).foldl (fun p r => p.del r.2.1) cfg.params }

/-- metric_util.py 135–154 `serialize_metric`, 157–176 `serialize_loss`: the class name in
the serialised form; objects of the class that wraps a function (`wrapper`) are
named after the function. `named` is `cfg["class_name"]` as Keras returns it. -/
def serialName (w : World Cls) (wrapper named : String) (m : Instance Cls) : String :=
  if named = wrapper then
    match m.params.get? "name" with
    | some (.str s) => w.camel s
    | _ => named
  else named

/-- metric_specs.py 1285–1301 `_serialize_tf_metric`: Keras names the class by its
registered name; the module is kept only for classes that are not registered. -/
def serializeTfMetric (w : World Cls) (m : Instance Cls) : Config :=
  { className := serialName w "MeanMetricWrapper" (w.keyName m.cls) m
    module := if w.keyName m.cls = w.className m.cls then w.moduleOf m.cls else ""
    params := m.params }

/-- metric_specs.py 1329–1336 `_serialize_tf_loss`. -/
def serializeTfLoss (w : World Cls) (m : Instance Cls) : Config :=
  { className := serialName w "LossFunctionWrapper" (w.keyName m.cls) m
    module := w.moduleOf m.cls
    params := m.params }

/-- metric_specs.py 1360–1365 `_serialize_tfma_metric`: no module. -/
def serializeTfma (w : World Cls) (m : Instance Cls) : Config :=
  { className := w.keyName m.cls
    module := ""
    params := m.params }

/-- metric_specs.py 91–110 `config_from_metric`. -/
def configFromMetric (w : World Cls) (m : Instance Cls) : Except Err Config :=
  match w.kind m.cls with
  | .kerasMetric =>
    if isSupported w m then .ok (removeUnsupported (serializeTfMetric w m))
    else .ok (serializeTfMetric w m)
  | .kerasLoss =>
    if isSupported w m then .ok (removeUnsupported (serializeTfMetric w m))
    else .ok (serializeTfLoss w m)
  | .tfma => .ok (serializeTfma w m)
  | .other => .error .notImplementedError

end TFMA.MetricConfigs
