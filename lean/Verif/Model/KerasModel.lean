import Verif.Beam.Combine
import Verif.Model.MetricKeys
import Mathlib.Algebra.Group.Basic

/-!
# The metrics saved with a Keras model (evaluators/keras_util.py)

A Keras model is given by its behaviour: the names of its outputs, its metrics, and the weights all of its metrics have after they were
reset and updated with a batch.  Keras itself is not part of /repo.
-/

namespace TFMA
namespace KerasModel

open MetricKeys Beam

/-- A metric of the model.  `classId` and `topK` are the attributes of that name, `none` if missing or `None`. `initial` are the weights
after `reset_states`. (keras_util.py 127–132 and 308–315) -/
structure Stored (W V : Type) where
  name : String
  classId : Option ℤ := none
  topK : Option ℤ := none
  initial : W
  result : W → V

/-- The model.  `metrics` are `model.metrics`, in case of `_KerasCompiledMetricsCombiner` the compiled metrics followed by those of the
compiled loss.  `update` stands for `reset_states` of every metric, one update with a batch, and `get_weights` of every metric: `F` is
what the model reads of an example (nothing in case of the compiled metrics), `R` are the labels, predictions and example weights of an
example for one output (no predictions in case of `model.evaluate`).  Simplification: whether a model with a single output gets the rows
or a dictionary with one entry is not told apart, and no padding. (keras_util.py 251–258, 341–344, 384–408, 433–434, 483–517) -/
structure Keras (F R W V : Type) where
  outputNames : List String
  metrics : List (Stored W V)
  update : List F → List (String × List R) → Except Err (List W)

/-- The prefix of the metrics of an output. (keras_util.py 134) -/
def tag (output : String) : List Char := output.toList ++ ['_']

/-- keras_util.py 138–140: the prefix is removed as long as there is one.  The fuel is the length of the name, each round makes it
shorter. -/
def strip (p : List Char) : ℕ → List Char → List Char
  | 0, name => name
  | n + 1, name => if p.isPrefixOf name then strip p n (name.drop p.length) else name

/-- keras_util.py 128–132; `SubKey` raises ValueError for `top_k` below one. -/
def subKey {W V : Type} (m : Stored W V) : Except Err (Option SubKey) :=
  match m.classId with
  | some i => (SubKey.new (some i) none none).map some
  | none =>
    match m.topK with
    | some k => (SubKey.new none none (some k)).map some
    | none => .ok none

/-- keras_util.py 133–159: output and name. -/
def outputAndName (outputs : List String) (name : String) : String × String :=
  match outputs.find? fun o => (tag o).isPrefixOf name.toList with
  | some o => (o, String.ofList (strip (tag o) name.toList.length name.toList))
  | none => ("", name)

/-- keras_util.py 127–159: the key of one metric. -/
def metricKey {W V : Type} (modelName : String) (outputs : List String) (m : Stored W V) : Except Err MetricKey :=
  match subKey m with
  | .error e => .error e
  | .ok sub =>
    .ok { name := (outputAndName outputs m.name).2, modelName := modelName, outputName := (outputAndName outputs m.name).1,
          subKey := sub, exampleWeighted := none }

/-- keras_util.py 116–160 `_metric_keys`. -/
def metricKeys {W V : Type} (modelName : String) (outputs : List String) : List (Stored W V) → Except Err (List MetricKey)
  | [] => .ok []
  | m :: ms =>
    match metricKey modelName outputs m with
    | .error e => .error e
    | .ok k =>
      match metricKeys modelName outputs ms with
      | .error e => .error e
      | .ok ks => .ok (k :: ks)

/-- Insertion into a sorted list without duplicates. (keras_util.py 193 `sorted(set(…))`) -/
def insertName (x : String) : List String → List String
  | [] => [x]
  | y :: ys => if x = y then y :: ys else if x ≤ y then x :: y :: ys else y :: insertName x ys

/-- keras_util.py 193 `_output_names`. -/
def namesOf (keys : List MetricKey) : List String := (keys.map MetricKey.outputName).foldr insertName []

/-- keras_util.py 194–199: the number of metrics of an output, or of all metrics for the empty name. -/
def countOf (keys : List MetricKey) (output : String) : ℕ :=
  if output = "" then keys.length else (keys.filter fun k => k.outputName = output).length

/-- The combiner: the model, the keys of its metrics and the batch size. (keras_util.py 168–200) -/
structure Combiner (F R W V : Type) where
  model : Keras F R W V
  keys : List MetricKey
  desired : Option ℤ := none

/-- `TFMetricsAccumulator`: what the model reads of the examples, the rows of each output (`none` for `None`), the weights of each
output, and the estimated size. (keras_util.py 346–358, 436–445; tf_metric_accumulators.py 55–86) -/
structure Acc (F R W : Type) where
  features : List F := []
  inputs : List (List (Option R))
  weights : List (List (Option W))
  size : ℕ := 0

/-- An example: what the model reads, the row of each output as computed by `to_label_prediction_example_weight`, and what the size
estimator adds, which is left open. (keras_util.py 365–382 and 452–481) -/
structure Example (F R : Type) where
  features : F
  row : String → Except Err R
  bytes : ℕ := 0

/-- What a runner does with an accumulator besides merging. (keras_util.py 264–272 and 295–300) -/
inductive Event (F R : Type) where
  | add (x : Example F R)
  | compact

variable {F R W V : Type} [AddCommMonoid W]

/-- keras_util.py 261–262 with 346–358 and 436–445. -/
def create (c : Combiner F R W V) : Acc F R W where
  inputs := (namesOf c.keys).map fun _ => []
  weights := (namesOf c.keys).map fun o => List.replicate (countOf c.keys o) none

/-- keras_util.py 365–380 and 452–468: the row of an example for an output; there is none for the empty name if there are several. -/
def rowFor (names : List String) (x : Example F R) (o : String) : Except Err (Option R) :=
  if o = "" ∧ 1 < names.length then .ok none else (x.row o).map some

/-- keras_util.py 365–381 and 452–479: the loop over the outputs; the rows of the example. -/
def rowsFor (names : List String) (x : Example F R) : List String → Except Err (List (Option R))
  | [] => .ok []
  | o :: os =>
    match rowFor names x o with
    | .error e => .error e
    | .ok r =>
      match rowsFor names x os with
      | .error e => .error e
      | .ok rs => .ok (r :: rs)

/-- keras_util.py 360–382 and 447–481 `_add_input`. -/
def addExample (c : Combiner F R W V) (a : Acc F R W) (x : Example F R) : Except Err (Acc F R W) :=
  match rowsFor (namesOf c.keys) x (namesOf c.keys) with
  | .error e => .error e
  | .ok rs =>
    .ok { a with
      features := a.features ++ [x.features]
      inputs := List.zipWith (fun col r => col ++ [r]) a.inputs rs
      size := a.size + x.bytes }

/-- keras_util.py 387–404 and 487–503: the columns passed to the model. -/
def columns (names : List String) (inputs : List (List (Option R))) : List (String × List R) :=
  ((names.zip inputs).filter fun p => !(p.1 = "" ∧ 1 < names.length)).map fun p => (p.1, p.2.filterMap id)

/-- tf_metric_accumulators.py 112–116: the weights of one metric. -/
def plusWeights (cur : Option W) (w : W) : Option W :=
  match cur with
  | none => some w
  | some c => some (c + w)

/-- tf_metric_accumulators.py 110–116 `add_weights` for the metrics from one on, in the weights of output 0: IndexError if there are
fewer places than metrics. (keras_util.py 257–258) -/
def addWeights : List (Option W) → List W → Except Err (List (Option W))
  | ws, [] => .ok ws
  | [], _ :: _ => .error .indexError
  | w :: ws, u :: us =>
    match addWeights ws us with
    | .error e => .error e
    | .ok rest => .ok (plusWeights w u :: rest)

/-- Applies a function that may raise to the weights of output 0. (keras_util.py 258, 286–292) -/
def onFirst (f : List (Option W) → Except Err (List (Option W))) : List (List (Option W)) → Except Err (List (List (Option W)))
  | [] => .error .indexError
  | w :: ws =>
    match f w with
    | .error e => .error e
    | .ok w => .ok (w :: ws)

/-- keras_util.py 244–259 `_process_batch`. -/
def processBatch (c : Combiner F R W V) (a : Acc F R W) : Except Err (Acc F R W) :=
  match a.inputs with
  | [] => .error .indexError
  | first :: _ =>
    if first.length = 0 then .ok a
    else
      match c.model.update a.features (columns (namesOf c.keys) a.inputs) with
      | .error e => .error e
      | .ok us =>
        match onFirst (addWeights · us) a.weights with
        | .error e => .error e
        | .ok ws => .ok { features := [], inputs := a.inputs.map fun _ => [], weights := ws, size := 0 }

/-- tf_metric_accumulators.py 83–86 and 122–127: `should_flush`. -/
def shouldFlush (c : Combiner F R W V) (a : Acc F R W) : Bool :=
  decide ((match c.desired with
    | some d => if d > 0 then d else 1000
    | none => 1000) ≤ ((a.inputs.head?.getD []).length : ℤ)) || decide (16 * 2 ^ 20 ≤ a.size)

/-- keras_util.py 264–272 `add_input` and 295–300 `compact`. -/
def step (c : Combiner F R W V) (a : Acc F R W) : Event F R → Except Err (Acc F R W)
  | .compact => processBatch c a
  | .add x =>
    match addExample c a x with
    | .error e => .error e
    | .ok b => if shouldFlush c b then processBatch c b else .ok b

/-- keras_util.py 285–292: the weights of the first `n` metrics of another accumulator; `None` is skipped. -/
def mergeWeights : ℕ → List (Option W) → List (Option W) → Except Err (List (Option W))
  | 0, ws, _ => .ok ws
  | _ + 1, _, [] => .error .indexError
  | n + 1, w :: ws, none :: us =>
    match mergeWeights n ws us with
    | .error e => .error e
    | .ok rest => .ok (w :: rest)
  | n + 1, [], none :: us => mergeWeights n [] us
  | _ + 1, [], some _ :: _ => .error .indexError
  | n + 1, w :: ws, some u :: us =>
    match mergeWeights n ws us with
    | .error e => .error e
    | .ok rest => .ok (plusWeights w u :: rest)

/-- keras_util.py 281–292: one accumulator merged into the result. -/
def mergeOne (c : Combiner F R W V) (r b : Acc F R W) : Except Err (Acc F R W) :=
  match processBatch c b with
  | .error e => .error e
  | .ok b =>
    match b.weights with
    | [] => .error .indexError
    | u :: _ =>
      match onFirst (mergeWeights c.keys.length · u) r.weights with
      | .error e => .error e
      | .ok ws => .ok { r with weights := ws }

/-- keras_util.py 274–293 `merge_accumulators`. -/
def merge (c : Combiner F R W V) : List (Acc F R W) → Except Err (Acc F R W)
  | [] => .error .stopIteration
  | a :: as =>
    match processBatch c a with
    | .error e => .error e
    | .ok r => loop (mergeOne c) r as

/-- keras_util.py 165–316 `_KerasCombiner` as a combiner of events. -/
def combineFn (c : Combiner F R W V) : CombineFn (Event F R) (Acc F R W) where
  create := create c
  addInput := step c
  merge := merge c

/-- keras_util.py 308–315: the metrics from one on. -/
def results : List (Stored W V) → List MetricKey → List (Option W) → Dict MetricKey V → Except Err (Dict MetricKey V)
  | [], _, _, d => .ok d
  | m :: ms, k :: ks, w :: ws, d => results ms ks ws (Dict.set d k (m.result (w.getD m.initial)))
  | _ :: _, _, _, _ => .error .indexError

/-- keras_util.py 302–316 `extract_output`. -/
def extract (c : Combiner F R W V) (a : Acc F R W) : Except Err (Dict MetricKey V) :=
  match processBatch c a with
  | .error e => .error e
  | .ok a =>
    match a.weights with
    | [] => .error .indexError
    | ws :: _ => results c.model.metrics c.keys ws []

/-- keras_util.py 37–113 `metric_computations_using_keras_saved_model`: nothing for a model without metrics. -/
def computations (modelName : String) (desired : Option ℤ) (m : Keras F R W V) : Except Err (List (Combiner F R W V)) :=
  if m.metrics.isEmpty then .ok []
  else
    match metricKeys modelName m.outputNames m.metrics with
    | .error e => .error e
    | .ok keys => .ok [{ model := m, keys := keys, desired := desired }]

end KerasModel
end TFMA
