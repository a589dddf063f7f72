import Verif.Model.Inputs
import Verif.Model.SelfMerge
import Verif.Model.MetricKeys

/-!
# Metrics that compare models

metrics/flip_metrics.py, metrics/prediction_difference_metrics.py and metrics/model_cosine_similarity.py without their
combiners (Model/SelfMerge): which keys are computed, what is read from an example, and how rates are derived from
counts.
-/

namespace TFMA
namespace Comparisons

open Inputs MetricKeys Combiners Beam

/-- utils/model_util.py 120–127 `get_baseline_model_spec`, as used in flip_metrics.py 285–286: the name of the first
spec that is a baseline. -/
def baselineName (specs : List (ModelSpec × Bool)) : Option String :=
  (specs.find? fun s => s.2).map fun s => s.1.name

/-- The loops of flip_metrics.py 288–301, prediction_difference_metrics.py 71–83 and model_cosine_similarity.py 88–100:
the keys of the metric. -/
def keys (name : String) (weighted : Bool) (baseline : Option String) (models outputs : List String)
    (subKeys : List (Option SubKey)) : List MetricKey :=
  (models.filter fun m => some m ≠ baseline).flatMap fun m =>
    outputs.flatMap fun o =>
      (if subKeys.isEmpty then [none] else subKeys).map fun sk =>
        { name := name, modelName := m, outputName := o, subKey := sk, exampleWeighted := some weighted, isDiff := true }

/-- The arguments of the two calls of `to_label_prediction_example_weight` (flip_metrics.py 89–111,
prediction_difference_metrics.py 138–158); `None` as name of a model is not the name of any spec, so no keys of specs are
used. Flip rates allow None, the difference does not. -/
def args (specs : List (ModelSpec × Bool)) (model : Option String) (output : String) (weighted allowNone : Bool) : Args :=
  { specs := if model.isNone then [] else specs.map Prod.fst
    model := model.getD ""
    output := output
    exampleWeighted := weighted
    flatten := true
    allowNone := allowNone }

/-- `next(...)` of the generator. (flip_metrics.py 89, 101) -/
def first : List Item → Except Err Item
  | [] => .error .stopIteration
  | x :: _ => .ok x

/-- metrics/metric_util.py 234–247 `safe_to_scalar` of an array. -/
def toScalar (a : Arr ℚ) : Except Err ℚ :=
  match a.data with
  | [] => .ok 0
  | [x] => .ok x
  | _ => .error .valueError

/-- A prediction as a number: several values have no truth value. (flip_metrics.py 114–115; predictions that are not
finite, or without any value, are outside the model) -/
def prediction (a : Arr Fl) : Except Err ℚ :=
  match a.data with
  | [.fin q] => .ok q
  | _ => .error .valueError

/-- flip_metrics.py 89–115, prediction_difference_metrics.py 138–159: the predictions compared and the weight. -/
def pair (part : ℕ → List Fl → List ℕ) (specs : List (ModelSpec × Bool)) (baseline : Option String) (model output : String)
    (weighted allowNone : Bool) (r : Raw) : Except Err PredPair := do
  let b ← first (← toLabelPredictionWeight part (args specs baseline output weighted allowNone) r)
  let m ← first (← toLabelPredictionWeight part (args specs (some model) output weighted allowNone) r)
  let w ← toScalar b.weight
  let pb ← prediction b.prediction
  let pm ← prediction m.prediction
  return ⟨pb, pm, w⟩

/-- The five flip rates. (flip_metrics.py 331–485) -/
inductive Kind where
  | symmetric
  | negToNeg
  | negToPos
  | posToNeg
  | posToPos
  deriving DecidableEq, Repr

/-- The numerators of `result`. (flip_metrics.py 358–361, 391–392, 422–423, 453–454, 484–485) -/
def Kind.count : Kind → FlipAcc → ℚ
  | .symmetric, a => a.negToPos + a.posToNeg
  | .negToNeg, a => a.negToNeg
  | .negToPos, a => a.negToPos
  | .posToNeg, a => a.posToNeg
  | .posToPos, a => a.posToPos

/-- `result`: the counts are Python floats, so a total weight of zero raises. (flip_metrics.py 358–361, 391–392, 422–423,
453–454, 484–485) -/
def Kind.result (k : Kind) (a : FlipAcc) : Except Err ℚ :=
  if a.examples = 0 then .error .zeroDivisionError else .ok (k.count a / a.examples)

/-- A flip rate metric with what it is asked for. (flip_metrics.py 201–206, 254–263) -/
structure Metric where
  kind : Kind
  name : String
  threshold : ℚ
  weighted : Bool
  models : List String
  outputs : List String
  subKeys : List (Option SubKey)

/-- flip_metrics.py 488–562 `_boolean_flip_rates_computations`: the five metrics that `BooleanFlipRates` stands for. -/
def booleanFlipRates (symmetric negToNeg negToPos posToNeg posToPos : String) (threshold : ℚ) (weighted : Bool)
    (models outputs : List String) (subKeys : List (Option SubKey)) : List Metric :=
  [⟨.symmetric, symmetric, threshold, weighted, models, outputs, subKeys⟩,
   ⟨.negToNeg, negToNeg, threshold, weighted, models, outputs, subKeys⟩,
   ⟨.negToPos, negToPos, threshold, weighted, models, outputs, subKeys⟩,
   ⟨.posToNeg, posToNeg, threshold, weighted, models, outputs, subKeys⟩,
   ⟨.posToPos, posToPos, threshold, weighted, models, outputs, subKeys⟩]

/-- What the computations of an evaluation have in common: the partition of top k (not used without sub keys), the model
specs, the text of the config, how numbers are written, and what collections of accumulators are. (flip_metrics.py
63–79, 183–195) -/
structure Env where
  part : ℕ → List Fl → List ℕ
  specs : List (ModelSpec × Bool)
  config : String
  text : ℚ → String
  reiterable : Bool

/-- A derived computation together with the counts it is derived from. (flip_metrics.py 303–326) -/
structure Task where
  kind : Kind
  key : MetricKey
  threshold : ℚ
  weighted : Bool
  deriving DecidableEq

/-- flip_metrics.py 285–328 `_metric_computations`. -/
def Metric.tasks (e : Env) (m : Metric) : List Task :=
  (keys m.name m.weighted (baselineName e.specs) m.models m.outputs m.subKeys).map fun k =>
    ⟨m.kind, k, m.threshold, m.weighted⟩

/-- metrics/metric_util.py `generate_private_name_from_arguments` 96–127 with the arguments of flip_metrics.py 171–181:
the arguments in alphabetical order, without those that are None. -/
def countsName (e : Env) (threshold : ℚ) : String :=
  "_flip_counts:" ++ ((match baselineName e.specs with | some b => "baseline_model_name=" ++ b ++ "," | none => "") ++
    ("eval_config=" ++ e.config ++ "," ++ "threshold=") ++ e.text threshold)

/-- flip_metrics.py 171–181: the key of the counts; it has no sub key. -/
def Task.countsKey (e : Env) (t : Task) : MetricKey :=
  { name := countsName e t.threshold, modelName := t.key.modelName, outputName := t.key.outputName
    exampleWeighted := some t.weighted }

/-- flip_metrics.py 60–141: the combiner on examples. -/
def Task.combiner (e : Env) (t : Task) : CombineFn Raw FlipAcc where
  create := (flipCombiner e.reiterable t.threshold).create
  addInput a r := (flipCombiner e.reiterable t.threshold).addInput a
    (pair e.part e.specs (baselineName e.specs) t.key.modelName t.key.outputName t.weighted true r)
  merge := (flipCombiner e.reiterable t.threshold).merge

/-- The metrics of the combiners: a dictionary from keys to counts (flip_metrics.py 143–147, one combiner per key). -/
def counts (e : Env) (s : Sched Raw) : List Task → Dict MetricKey FlipAcc → Except Err (Dict MetricKey FlipAcc)
  | [], d => .ok d
  | t :: ts, d =>
    match (t.combiner e).run s with
    | .error x => .error x
    | .ok a => counts e s ts (Dict.set d (t.countsKey e) a)

/-- flip_metrics.py 246–252 `_result` for each derived computation. -/
def rates (e : Env) (c : Dict MetricKey FlipAcc) : List Task → Dict MetricKey ℚ → Except Err (Dict MetricKey ℚ)
  | [], d => .ok d
  | t :: ts, d =>
    match Dict.get? c (t.countsKey e) with
    | none => .error .keyError
    | some a =>
      match t.kind.result a with
      | .error x => .error x
      | .ok q => rates e c ts (Dict.set d t.key q)

/-- The flip rates of an evaluation. (flip_metrics.py 285–328) -/
def evaluate (e : Env) (ms : List Metric) (s : Sched Raw) : Except Err (Dict MetricKey ℚ) :=
  let ts := ms.flatMap (Metric.tasks e)
  match counts e s ts [] with
  | .error x => .error x
  | .ok c => rates e c ts []

end Comparisons
end TFMA
