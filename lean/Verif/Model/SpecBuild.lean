import Verif.Model.MetricSpecs

/-!
# Metrics specs built from metric objects (metrics/metric_specs.py 164–533)

Line numbers without a file refer to metrics/metric_specs.py.  A spec is modelled as the list of its metric configurations together with
its other fields (`MetricSpecs.Spec` without metrics), because it may hold TFMA metrics as well as Keras metrics and losses.  An
argument that is None and an empty list or dictionary give the same message, so `model_names`, `output_names`, `output_weights` and
`query_key` have no None.
-/

namespace TFMA
namespace SpecBuild

open MetricSpecs

/-- config.proto 480–534 `MetricsSpec`: the configurations of the metrics and the other fields. -/
structure Built (C B S T : Type) where
  metrics : List C
  options : Spec B S T

/-- The arguments `metrics` and `unweighted_metrics`: None, a list, or lists by output name. (64–66) -/
inductive Metrics (M : Type) where
  | absent
  | list (ms : List M)
  | dict (d : Dict String (List M))

/-- `bool(metrics)`. (243–245, 291, 304) -/
def Metrics.truthy {M : Type} : Metrics M → Bool
  | .absent => false
  | .list ms => !ms.isEmpty
  | .dict d => !d.isEmpty

/-- `isinstance(metrics, dict)`. (238, 246, 253) -/
def Metrics.isDict {M : Type} : Metrics M → Bool
  | .dict _ => true
  | _ => false

/-- `metrics if isinstance(metrics, dict) else {}`. (254–257) -/
def Metrics.asDict {M : Type} : Metrics M → Dict String (List M)
  | .dict d => d
  | _ => []

/-- The list that is iterated over if it is not a dictionary; None like an empty list. (291–316) -/
def Metrics.asList {M : Type} : Metrics M → List M
  | .list ms => ms
  | _ => []

/-- 164–175: the arguments of `specs_from_metrics`. -/
structure Args (M : Type) where
  metrics : Metrics M := .absent
  unweighted : Metrics M := .absent
  modelNames : List String := []
  outputNames : List String := []
  outputWeights : Dict String ℚ := []
  binarize : Option Binarize := none
  aggregate : Option Aggregate := none
  queryKey : String := ""
  exampleCount : Option Bool := none
  weightedCount : Option Bool := none

/-- `config_from_metric` (91–110) and the configurations of the two counts (343, 354–356). -/
structure Env (M C : Type) where
  config : M → Except Err C
  count : C
  weightedCount : C

variable {M C B S T : Type}

/-- 321–366 `example_count_specs`. -/
def exampleCountSpecs (env : Env M C) (modelNames outputNames : List String) (outputWeights : Dict String ℚ) (count weighted : Bool) :
    List (Built C B S T) :=
  (if count then [⟨[env.count], { modelNames := modelNames, weights := some (false, true) }⟩] else []) ++
  (if weighted then
    [⟨[env.weightedCount],
      { modelNames := modelNames
        outputNames := outputNames
        outputWeights := outputWeights
        weights := some (true, false) }⟩]
    else [])

/-- 291–316: the spec of a list of metrics, if there are any. -/
def metricsSpec (env : Env M C) (a : Args M) (ms : List M) (weights : Option (Bool × Bool)) : Except Err (List (Built C B S T)) :=
  if ms.isEmpty then .ok []
  else match mapE env.config ms with
    | .error e => .error e
    | .ok cs => .ok [⟨cs,
        { modelNames := a.modelNames
          outputNames := a.outputNames
          outputWeights := a.outputWeights
          binarize := a.binarize
          aggregate := a.aggregate
          weights := weights
          queryKey := a.queryKey }⟩]

/-- 276–318: metrics in lists. -/
def fromLists (env : Env M C) (a : Args M) (metrics unweighted : List M) : Except Err (List (Built C B S T)) :=
  match metricsSpec env a metrics none with
  | .error e => .error e
  | .ok w => match metricsSpec env a unweighted (some (false, true)) with
    | .error e => .error e
    | .ok u => .ok (exampleCountSpecs env a.modelNames a.outputNames a.outputWeights (a.exampleCount.getD true)
        (a.weightedCount.getD true) ++ w ++ u)

/-- Insertion into a sorted list without repetition. (`sorted` of a set, 259–260) -/
def insertName (x : String) : List String → List String
  | [] => [x]
  | y :: ys => if x = y then y :: ys else if x < y then x :: y :: ys else y :: insertName x ys

/-- 259–260: the names of the outputs in order. -/
def sortedNames (l : List String) : List String := l.foldr insertName []

/-- 266–270: the arguments for one output: `output_weights` and `query_key` are not passed on. -/
def outputArgs (a : Args M) (o : String) (count : Option Bool) : Args M :=
  { modelNames := a.modelNames, outputNames := [o], binarize := a.binarize, aggregate := a.aggregate, exampleCount := count,
    weightedCount := a.weightedCount }

/-- 260–274: the loop over the outputs; after the first one `include_example_count` is false. -/
def perOutput (env : Env M C) (a : Args M) (d u : Dict String (List M)) : Option Bool → List String → Except Err (List (Built C B S T))
  | _, [] => .ok []
  | count, o :: os =>
    match fromLists env (outputArgs a o count) ((Dict.get? d o).getD []) ((Dict.get? u o).getD []) with
    | .error e => .error e
    | .ok s => match perOutput env a d u (some false) os with
      | .error e => .error e
      | .ok rest => .ok (s ++ rest)

/-- 164–318 `specs_from_metrics`. -/
def specsFromMetrics (env : Env M C) (a : Args M) : Except Err (List (Built C B S T)) :=
  if a.metrics.isDict && !a.outputNames.isEmpty then .error .valueError
  else if a.metrics.truthy && a.unweighted.truthy && (a.metrics.isDict != a.unweighted.isDict) then .error .valueError
  else if a.metrics.isDict || a.unweighted.isDict then
    perOutput env a a.metrics.asDict a.unweighted.asDict a.exampleCount
      (sortedNames (a.metrics.asDict.map Prod.fst ++ a.unweighted.asDict.map Prod.fst))
  else fromLists env a a.metrics.asList a.unweighted.asList

/-! ### The default specs -/

/-- A metric object of the default specs: its class, its name, and the arguments it is created with. `keras`: the class is one of
tf_keras.metrics. (392–408, 440–459, 493–511) -/
structure Obj where
  cls : String
  name : String
  keras : Bool := false
  topK : Option ℤ := none
  range : Option (ℚ × ℚ) := none
  deriving DecidableEq, Repr

/-- 369–415 `default_regression_specs`: the metrics; `losses` is `none` for None. -/
def regressionMetrics (losses : Option (List Obj)) (range : Option ℚ × Option ℚ) : List Obj :=
  [⟨"Accuracy", "accuracy", true, none, none⟩, ⟨"MeanLabel", "mean_label", false, none, none⟩,
    ⟨"MeanPrediction", "mean_prediction", false, none, none⟩, ⟨"Calibration", "calibration", false, none, none⟩] ++
  losses.getD [⟨"MeanSquaredError", "mse", true, none, none⟩] ++
  match range with
  | (some l, some r) => [⟨"CalibrationPlot", "calibration_plot", false, none, some (l, r)⟩]
  | _ => []

/-- 440–459: the metrics of `default_binary_classification_specs`. -/
def binaryMetrics (loss : Bool) : List Obj :=
  [⟨"BinaryAccuracy", "binary_accuracy", false, none, none⟩, ⟨"AUC", "auc", false, none, none⟩,
    ⟨"AUC", "auc_precison_recall", false, none, none⟩, ⟨"Precision", "precision", false, none, none⟩,
    ⟨"Recall", "recall", false, none, none⟩, ⟨"MeanLabel", "mean_label", false, none, none⟩,
    ⟨"MeanPrediction", "mean_prediction", false, none, none⟩, ⟨"Calibration", "calibration", false, none, none⟩,
    ⟨"ConfusionMatrixPlot", "confusion_matrix_plot", false, none, none⟩,
    ⟨"CalibrationPlot", "calibration_plot", false, none, none⟩] ++
  if loss then [⟨"BinaryCrossentropy", "loss", true, none, none⟩] else []

/-- 493–511: the metrics of `default_multi_class_classification_specs` besides the binary ones. -/
def multiClassMetrics (sparse : Bool) (binarize : Option Binarize) : List Obj :=
  (if sparse then [⟨"SparseCategoricalCrossentropy", "loss", true, none, none⟩, ⟨"SparseCategoricalAccuracy", "accuracy", true, none, none⟩]
    else [⟨"CategoricalCrossentropy", "loss", true, none, none⟩, ⟨"CategoricalAccuracy", "accuracy", true, none, none⟩]) ++
  [⟨"MultiClassConfusionMatrixPlot", "multi_class_confusion_matrix_plot", false, none, none⟩] ++
  match binarize with
  | none => []
  | some b => b.topKList.flatMap fun k => [⟨"Precision", "precision", false, some k, none⟩, ⟨"Recall", "recall", false, some k, none⟩]

/-- 369–415 `default_regression_specs`. -/
def defaultRegressionSpecs (env : Env Obj C) (models outputs : List String) (weights : Dict String ℚ) (losses : Option (List Obj))
    (range : Option ℚ × Option ℚ) : Except Err (List (Built C B S T)) :=
  specsFromMetrics env
    { metrics := .list (regressionMetrics losses range)
      modelNames := models
      outputNames := outputs
      outputWeights := weights }

/-- 418–468 `default_binary_classification_specs`. -/
def defaultBinarySpecs (env : Env Obj C) (models outputs : List String) (weights : Dict String ℚ) (binarize : Option Binarize)
    (aggregate : Option Aggregate) (loss : Bool) : Except Err (List (Built C B S T)) :=
  specsFromMetrics env
    { metrics := .list (binaryMetrics loss)
      modelNames := models
      outputNames := outputs
      outputWeights := weights
      binarize := binarize
      aggregate := aggregate }

/-- 471–533 `default_multi_class_classification_specs`. -/
def defaultMultiClassSpecs (env : Env Obj C) (models outputs : List String) (weights : Dict String ℚ) (binarize : Option Binarize)
    (aggregate : Option Aggregate) (sparse : Bool) : Except Err (List (Built C B S T)) :=
  match specsFromMetrics env
    { metrics := .list (multiClassMetrics sparse binarize)
      modelNames := models
      outputNames := outputs
      outputWeights := weights } with
  | .error e => .error e
  | .ok m =>
    match defaultBinarySpecs env models outputs weights (binarize.map fun b => { b with topKList := [] })
        (some (aggregate.getD { kind := some .micro })) true with
    | .error e => .error e
    | .ok b => .ok (m ++ b)

end SpecBuild
end TFMA
