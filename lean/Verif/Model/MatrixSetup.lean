import Verif.Model.Evaluate
import Verif.Model.ConfusionMatrices

/-!
# Setting up binary confusion matrices

metrics/binary_confusion_matrices.py 202–490 (everything but the functions computing values, which are in
Model/ConfusionMatrices), metrics/calibration_histogram.py 52–145, metrics/confusion_matrix_metrics.py 105–167, 300–370,
2543–2775.
-/

namespace TFMA
namespace MatrixSetup

open MetricKeys Evaluate

/-! ### Thresholds -/

/-- binary_confusion_matrices.py 205–212 `_interpolated_thresholds`: `range` of a negative number is empty; numbers are exact
(binary floats round the quotients). -/
def interpolated (n : ℤ) : List Fl :=
  .fin (-Bcm.eps) :: (List.range (n - 2).toNat).map (fun i : ℕ => Fl.fin (((i : ℚ) + 1) / ((n : ℚ) - 1))) ++ [.fin (1 + Bcm.eps)]

/-- calibration_histogram.py 27 `DEFAULT_NUM_BUCKETS`, binary_confusion_matrices.py 30 `DEFAULT_NUM_THRESHOLDS`. -/
def defaultNum : ℤ := 10000

/-- binary_confusion_matrices.py 35 `_KERAS_DEFAULT_NUM_THRESHOLDS`. -/
def kerasNum : ℤ := 200

/-- binary_confusion_matrices.py 291–303: thresholds coming from keras are replaced by their number, and dropped if there are
two less than the default number (only their count is compared). -/
def reset (num : Option ℤ) (ts : Option (List Fl)) : Option ℤ × Option (List Fl) :=
  match ts with
  | some (t :: l) =>
    if (num = none ∨ num = some 0) ∧ t :: l = interpolated (t :: l).length then (some ((t :: l).length : ℤ), none)
    else if (num = some defaultNum ∨ num = some kerasNum) ∧ some (((t :: l).length : ℤ) + 2) = num then (num, none)
    else (num, ts)
  | _ => (num, ts)

/-- binary_confusion_matrices.py 304–317: only one of the two settings, at least two interpolated thresholds. -/
def resolve : Option ℤ × Option (List Fl) → Except Err (Option ℤ × List Fl)
  | (some _, some _) => .error .valueError
  | (none, some ts) => .ok (none, ts)
  | (none, none) => .ok (some defaultNum, interpolated defaultNum)
  | (some n, none) => if n ≤ 1 then .error .valueError else .ok (some n, interpolated n)

/-- binary_confusion_matrices.py 291–317: the number of thresholds (if interpolated) and the thresholds. -/
def choose (num : Option ℤ) (ts : Option (List Fl)) : Except Err (Option ℤ × List Fl) := resolve (reset num ts)

/-! ### The computations -/

/-- Arguments of binary_confusion_matrices.py 215–239 `binary_confusion_matrices`.  Left out: the eval config (always the same
one in an evaluation).  `extract` names the function yielding labels, predictions and weights; the preprocessors are given by
their names, which are also their ids (metric_types.py 492–503). -/
structure Request where
  num : Option ℤ := none
  thresholds : Option (List Fl) := none
  name : Option String := none
  modelName : String := ""
  outputName : String := ""
  subKey : Option SubKey := none
  aggregationType : Option AggregationType := none
  classWeights : Option (Dict ℤ ℚ) := none
  exampleWeighted : Bool := false
  useHistogram : Option Bool := none
  extract : String := "to_label_prediction_example_weight"
  preprocessors : List String := []
  examplesName : Option String := none
  idKey : Option String := none
  idsCount : Option ℤ := none
  fractional : Bool := true

/-- The name of a metric: given, or generated from arguments (metric_util.py 96–125 joins the base name and the arguments which
are not None, in alphabetical order; the model keeps them apart, i.e. assumes that different arguments have different texts). -/
inductive Name where
  | given (s : Option String)
  | matrices (classWeights : Option (Dict ℤ ℚ)) (idKey : Option String) (idsCount : Option ℤ) (num : Option ℤ)
      (preprocessors : List String) (thresholds : Option (List Fl))
  | examples (classWeights : Option (Dict ℤ ℚ)) (idKey : Option String) (idsCount : Option ℤ) (num : Option ℤ)
      (preprocessors : List String) (thresholds : Option (List Fl))
  | histogram (classWeights : Option (Dict ℤ ℚ)) (fractional : Bool) (left : ℚ) (num : ℕ) (byPrediction : Bool)
      (preprocessors : List String) (right : ℚ)
  deriving DecidableEq

/-- A metric or plot key with the name kept apart. (metric_types.py 253–469) -/
structure Key where
  name : Name
  modelName : String
  outputName : String
  subKey : Option SubKey
  aggregationType : Option AggregationType := none
  exampleWeighted : Bool
  deriving DecidableEq

/-- What a computation does: everything its combiner or function depends on (binary_confusion_matrices.py 392–488, 556–585;
calibration_histogram.py 124–145). -/
inductive Body where
  | histogram (numBuckets : ℕ) (modelName outputName : String) (subKey : Option SubKey) (aggregationType : Option AggregationType)
      (classWeights : Option (Dict ℤ ℚ)) (exampleWeighted fractional : Bool)
  | counts (thresholds : List Fl) (modelName outputName : String) (subKey : Option SubKey) (extract : String)
      (idKey : Option String) (idsCount : ℤ) (aggregationType : Option AggregationType) (classWeights : Option (Dict ℤ ℚ))
      (exampleWeighted fractional : Bool)
  | fromHistogram (thresholds : List Fl) (input : Key)
  | fromCounts (thresholds : List Fl) (input : Key) (withExamples : Bool)
  | samples (falsePositives : Bool) (input output : Key)
  deriving DecidableEq

/-- A computation before its names are turned into text. (metric_types.py 520–729) -/
structure Comp where
  kind : CompKind
  className : String
  keys : List Key
  preprocessors : List String := []
  body : Body
  deriving DecidableEq

/-- python truth of an optional text. -/
def truthyText (s : Option String) : Bool := match s with
  | some t => !decide (t = "")
  | none => false

/-- python truth of an optional number. -/
def truthyInt (n : Option ℤ) : Bool := match n with
  | some v => !decide (v = 0)
  | none => false

/-- python truth of class weights, kept only if they are not empty (361–362). -/
def keepWeights (cw : Option (Dict ℤ ℚ)) : Option (Dict ℤ ℚ) := match cw with
  | some [] => none
  | cw => cw

/-- binary_confusion_matrices.py 319–322: whether a histogram is used. -/
def histogramDefault (num : Option ℤ) (ts : List Fl) : Bool := num.isSome || match ts with
  | [t] => Fl.lt t (.fin 0)
  | _ => false

/-- binary_confusion_matrices.py 351–368: the names of the matrices and of the examples.  A number of thresholds that is set is
never 0 here. -/
def names (r : Request) (num : Option ℤ) (ts : List Fl) : Name × Name :=
  match r.name with
  | some n => (.given (some n), .given r.examplesName)
  | none =>
    let t := if num.isSome then none else some ts
    (.matrices (keepWeights r.classWeights) r.idKey r.idsCount num r.preprocessors t,
      .examples (keepWeights r.classWeights) r.idKey r.idsCount num r.preprocessors t)

/-- binary_confusion_matrices.py 370–383: the key with the given name. -/
def keyOf (r : Request) (n : Name) : Key :=
  { name := n, modelName := r.modelName, outputName := r.outputName, subKey := r.subKey, exampleWeighted := r.exampleWeighted }

/-- binary_confusion_matrices.py 404: one bucket if there is a single threshold which is not positive. -/
def numBuckets (ts : List Fl) : ℕ := match ts with
  | [t] => if Fl.le t (.fin 0) then 1 else 10000
  | _ => 10000

/-- calibration_histogram.py 98–145 `calibration_histogram` as called in binary_confusion_matrices.py 406–417 (left 0, right 1,
hence fractional labels; bucketing by prediction). -/
def histogramComp (r : Request) (n : ℕ) : Comp :=
  { kind := .metric, className := "_CalibrationHistogramCombiner"
    keys := [keyOf r (.histogram (keepWeights r.classWeights) true 0 n true r.preprocessors 1)]
    preprocessors := r.preprocessors
    body := .histogram n r.modelName r.outputName r.subKey r.aggregationType r.classWeights r.exampleWeighted true }

/-- binary_confusion_matrices.py 538–585 `_binary_confusion_matrix_computation`: its key has the aggregation type; the default
number of example ids is 100 (contrib/aggregates/binary_confusion_matrices.py 18). -/
def countsComp (r : Request) (n : Name) (ts : List Fl) : Comp :=
  { kind := .metric, className := "_BinaryConfusionMatrixCombiner"
    keys := [{ keyOf r n with aggregationType := r.aggregationType }]
    preprocessors := r.preprocessors
    body := .counts ts r.modelName r.outputName r.subKey r.extract r.idKey (r.idsCount.getD 100) r.aggregationType r.classWeights
      r.exampleWeighted r.fractional }

/-- binary_confusion_matrices.py 419–488, the derived computation from the counts. -/
def fromCountsComp (r : Request) (ns : Name × Name) (ts : List Fl) : Comp :=
  { kind := .derived, className := "function"
    keys := if truthyText r.idKey then [keyOf r ns.2, keyOf r ns.1] else [keyOf r ns.1]
    body := .fromCounts ts { keyOf r ns.1 with aggregationType := r.aggregationType } (truthyText r.idKey) }

/-- binary_confusion_matrices.py 385–488: the computations from chosen thresholds. -/
def build (r : Request) (num : Option ℤ) (ts : List Fl) : Except Err (List Comp) :=
  let hist := r.useHistogram.getD (histogramDefault num ts)
  if hist && (truthyText r.examplesName || truthyText r.idKey || truthyInt r.idsCount) then .error .valueError
  else if truthyText r.examplesName && !(truthyText r.idKey && truthyInt r.idsCount) then .error .valueError
  else if hist then
    let h := histogramComp r (numBuckets ts)
    .ok [h, { kind := .derived, className := "function", keys := [keyOf r (names r num ts).1]
              body := .fromHistogram ts (keyOf r (.histogram (keepWeights r.classWeights) true 0 (numBuckets ts) true r.preprocessors 1)) }]
  else if truthyInt r.idsCount != truthyText r.idKey then .error .valueError
  else .ok [countsComp r (names r num ts).1 ts, fromCountsComp r (names r num ts) ts]

/-- binary_confusion_matrices.py 215–488 `binary_confusion_matrices`. -/
def computations (r : Request) : Except Err (List Comp) :=
  match choose r.num r.thresholds with
  | .error e => .error e
  | .ok (num, ts) => build r num ts

/-! ### Metrics -/

/-- A sub key under `_replace` of both settings of a metric, confusion_matrix_metrics.py 137–166 (`_replace` does not run the
checks of `SubKey.__new__`). -/
def updateSubKey (sk : Option SubKey) (topK classId : Option ℤ) : Except Err (Option SubKey) :=
  match sk, topK, classId with
  | none, none, none => .ok none
  | sk, topK, classId =>
    let s := sk.getD ⟨none, none, none⟩
    if topK.isSome && s.topK.isSome then .error .valueError
    else if classId.isSome && s.classId.isSome then .error .valueError
    else .ok (some ⟨classId.or s.classId, s.k, topK.or s.topK⟩)

/-- The thresholds argument of a metric: a float, an integer or a list. (confusion_matrix_metrics.py 227–229) -/
inductive ThresholdArg where
  | float (x : Fl)
  | whole (n : ℤ)
  | list (l : List Fl)
  deriving DecidableEq

/-- confusion_matrix_metrics.py 341–349: defaults and wrapping.  An integer is left alone and fails when its length is taken, in
whichever branch of binary_confusion_matrices.py 291–322 (and in the message of 305). -/
def metricThresholds (arg : Option ThresholdArg) (num : Option ℤ) (sk : Option SubKey) (default : Option Fl) :
    Except Err (Option (List Fl)) :=
  match arg with
  | some (.float x) => .ok (some [x])
  | some (.list l) => .ok (some l)
  | some (.whole _) => .error .typeError
  | none =>
    if num.isSome then .ok none
    else if truthyInt (sk.bind SubKey.topK) then .ok (some [.ninf])
    else .ok (default.map fun d => [d])

/-- confusion_matrix_metrics.py 308–379 `ConfusionMatrixMetricBase._metric_computations`: the computations of the matrices, and the
sub key of the metric.  (The derived computation of the value is `C13`'s.)  `r` has the model, output and so on. -/
def metricMatrices (r : Request) (arg : Option ThresholdArg) (num topK classId : Option ℤ) (default : Option Fl) :
    Except Err (Option SubKey × List Comp) := do
  let sk ← updateSubKey r.subKey topK classId
  let ts ← metricThresholds arg num sk default
  let cs ← computations { r with subKey := sk, num := num, thresholds := ts }
  return (sk, cs)

/-- confusion_matrix_metrics.py 2604–2663 `ConfusionMatrixFeatureSamplerBase._metric_computations`; the feature preprocessor is called
`feature_preprocessor` (metric_types.py 978).  The derived computation has no keys. -/
def sampler (r : Request) (falsePositives : Bool) (feature : String) (size : ℤ) (threshold : Fl) (name : String)
    (topK classId : Option ℤ) : Except Err (List Comp) := do
  let sk ← updateSubKey r.subKey topK classId
  let r' := { r with subKey := sk, num := none, thresholds := some [threshold], idKey := some feature, idsCount := some size,
                     useHistogram := some false, preprocessors := ["feature_preprocessor"] }
  let cs ← computations r'
  let input := (cs.getLast?.bind fun c => c.keys.head?).getD (keyOf r' (.given none))
  return cs ++ [{ kind := .derived, className := "function", keys := []
                  body := .samples falsePositives input
                    { keyOf r' (.given (some name)) with aggregationType := r.aggregationType } }]

/-- confusion_matrix_metrics.py 2707–2710, 2764–2767 `_get_samples`: exactly one threshold is expected; `np.concatenate` of an empty
list raises ValueError. -/
def getSamples {V : Type} (cases : List (List (List V))) : Except Err (List V) :=
  match cases with
  | [c] => if c.isEmpty then .error .valueError else .ok c.flatten
  | _ => .error .assertionError

/-- A computation with its names turned into text. -/
def Key.text (render : Name → String) (k : Key) : MetricKey :=
  { name := render k.name, modelName := k.modelName, outputName := k.outputName, subKey := k.subKey
    aggregationType := k.aggregationType, exampleWeighted := some k.exampleWeighted }

/-- The computation handed to the evaluator (metric_types.py 520–729). -/
def Comp.text (render : Name → String) (c : Comp) : Computation Body :=
  { kind := c.kind, className := c.className, keys := c.keys.map (Key.text render), preprocessors := c.preprocessors, body := c.body }

end MatrixSetup
end TFMA
