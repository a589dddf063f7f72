import Verif.Beam.Combine
import Verif.Model.MetricKeys
import Mathlib.Algebra.Order.Ring.Rat
import Mathlib.Tactic.NormNum

/-!
# Keras metrics and losses (tf_metric_wrapper.py, tf_metric_accumulators.py)

A Keras metric is given by its behaviour: the weights it has after `reset_states`, the weights after `reset_states` and one
`update_state` with a batch, and its result as a function of the weights.  Keras itself is not part of /repo.
-/

namespace TFMA
namespace TfMetrics

open MetricKeys Beam

/-- The numpy kind of an array, as far as the padding code looks at it. (tf_metric_accumulators.py 224–236 `a.dtype.kind`) -/
inductive Kind where
  | i
  | f
  | other
  deriving DecidableEq, Repr

/-- One label or prediction array.  Simplification: one dimension. (tf_metric_accumulators.py 201–215) -/
structure Vec where
  kind : Kind := .f
  vals : List ℚ
  deriving DecidableEq, Repr

/-- The arguments of one `add_input`.  Simplification: one example weight.  `bytes` is what the size estimator adds for the three
arrays; it depends on the reference counts of the arrays at run time and is therefore left open.
(tf_metric_accumulators.py 92–97 and 201–215; utils/size_estimator.py 46–68) -/
structure Row where
  label : Vec
  pred : Vec
  weight : ℚ
  bytes : ℕ := 0
  deriving DecidableEq, Repr

/-- `metric.result()`: a number or a dictionary of numbers. (tf_metric_wrapper.py 683–690) -/
inductive Result (V : Type) where
  | single (v : V)
  | named (vs : List (String × V))
  deriving DecidableEq, Repr

/-- A `tf_keras.metrics.Metric`, or a `tf_keras.losses.Loss` wrapped by `_LossMetric`.  `classId` and `topK` are the attributes of that
name, `none` if missing; `sparse` says that the name of the class starts with "Sparse"; `matrix` that the type is one of the nine of
`_separate_confusion_matrix_metrics`. (tf_metric_wrapper.py 190–201, 212–240, 245–268, 478–492) -/
structure Metric (W V : Type) where
  name : String
  isLoss : Bool := false
  classId : Option ℤ := none
  topK : Option ℤ := none
  sparse : Bool := false
  matrix : Bool := false
  initial : W
  update : List Row → Except Err W
  result : W → Result V

/-- A padding value of the options: the oneof holds a float or an integer. (tf_metric_accumulators.py 190–199) -/
inductive PadValue where
  | float (q : ℚ)
  | int (i : ℤ)
  deriving DecidableEq, Repr

/-- `PaddingOptions` of the model spec. (tf_metric_accumulators.py 190–199) -/
structure Padding where
  label : Option PadValue := none
  pred : Option PadValue := none
  deriving DecidableEq, Repr

/-- The arguments of `_CompilableMetricsCombiner`, after `setup`: the metrics (metrics before losses) of each output name, sorted by
output name. (tf_metric_wrapper.py 495–556) -/
structure Combiner (W V : Type) where
  outputs : List (String × List (Metric W V))
  padding : Option Padding := none
  desired : Option ℤ := none
  modelName : String := ""
  subKey : Option SubKey := none
  exampleWeighted : Bool := false

/-- tf_metric_accumulators.py 25–86 and 139–199 `TFCompilableMetricsAccumulator`: the collected rows and the sums of weights of each
output. -/
structure Acc (W : Type) where
  inputs : List (List Row)
  weights : List (List (Option W))
  size : ℕ := 0
  padTo : ℕ := 0

/-- What a runner does with an accumulator besides merging: add an element, given by its rows for each output (the results of
`to_label_prediction_example_weight`), or compact it. (tf_metric_wrapper.py 597–630 and 654–659) -/
inductive Event where
  | add (x : List (Except Err (List Row)))
  | compact

variable {W V : Type} [AddCommMonoid W]

/-- tf_metric_accumulators.py 83–86. -/
def batchSize (desired : Option ℤ) : ℤ :=
  match desired with
  | some d => if d ≠ 0 ∧ d > 0 then d else 1000
  | none => 1000

/-- tf_metric_accumulators.py 50 `_TOTAL_INPUT_BYTE_SIZE_THRESHOLD`: 16 MiB. -/
def sizeThreshold : ℕ := 16 * 2 ^ 20

/-- tf_metric_wrapper.py 581–595 and tf_metric_accumulators.py 55–86. -/
def create (c : Combiner W V) : Acc W where
  inputs := c.outputs.map fun _ => []
  weights := c.outputs.map fun o => o.2.map fun _ => none

/-- tf_metric_accumulators.py 224–236 `pad_value`. -/
def padValue (a : Vec) (configured : Option PadValue) : Except Err ℚ :=
  match configured with
  | none => .ok 0
  | some (.int i) => if a.kind = .i then .ok i else .error .valueError
  | some (.float q) => if a.kind = .f then .ok q else .error .valueError

/-- metric_util.py 250–258 `pad` (np.pad rejects negative widths). -/
def pad (a : Vec) (n : ℕ) (v : ℚ) : Except Err Vec :=
  if a.vals.length = n then .ok a
  else if n < a.vals.length then .error .valueError
  else .ok { a with vals := a.vals ++ List.replicate (n - a.vals.length) v }

/-- tf_metric_accumulators.py 238–251: padding of one array. -/
def padVec (n : ℕ) (configured : Option PadValue) (a : Vec) : Except Err Vec :=
  match padValue a configured with
  | .error e => .error e
  | .ok v => pad a n v

/-- tf_metric_accumulators.py 238–251, for a list. -/
def padAll (n : ℕ) (configured : Option PadValue) : List Vec → Except Err (List Vec)
  | [] => .ok []
  | a :: as =>
    match padVec n configured a with
    | .error e => .error e
    | .ok b =>
      match padAll n configured as with
      | .error e => .error e
      | .ok bs => .ok (b :: bs)

/-- `np.array(rows)` of arrays of one dimension: they must have the same length. (tf_metric_accumulators.py 252) -/
def sameLength : List Vec → Bool
  | [] => true
  | a :: as => as.all fun b => b.vals.length = a.vals.length

/-- Rows with other labels and predictions. (tf_metric_accumulators.py 252) -/
def rebuild : List Row → List Vec → List Vec → List Row
  | r :: rs, l :: ls, p :: ps => { r with label := l, pred := p } :: rebuild rs ls ps
  | _, _, _ => []

/-- tf_metric_accumulators.py 217–252 `get_inputs`. -/
def getInputs (padding : Option Padding) (padTo : ℕ) (rows : List Row) : Except Err (List Row) := do
  let ls ← match padding with
    | none => .ok (rows.map Row.label)
    | some o => padAll padTo o.label (rows.map Row.label)
  let ps ← match padding with
    | none => .ok (rows.map Row.pred)
    | some o => padAll padTo o.pred (rows.map Row.pred)
  if sameLength ls && sameLength ps then .ok (rebuild rows ls ps) else .error .valueError

/-- tf_metric_accumulators.py 110–116 `add_weights`. -/
def addWeights (cur : Option W) (w : W) : Option W :=
  match cur with
  | none => some w
  | some c => some (c + w)

/-- tf_metric_wrapper.py 567–578: the metrics of one output; an exception of a metric becomes a `ValueError`. -/
def updateMetrics (rows : List Row) : List (Metric W V) → List (Option W) → Except Err (List (Option W))
  | m :: ms, w :: ws =>
    match m.update rows with
    | .error _ => .error .valueError
    | .ok u =>
      match updateMetrics rows ms ws with
      | .error e => .error e
      | .ok us => .ok (addWeights w u :: us)
  | _, _ => .ok []

/-- tf_metric_wrapper.py 565–578: the loop over the outputs. -/
def updateOutputs (padding : Option Padding) (padTo : ℕ) :
    List (String × List (Metric W V)) → List (List Row) → List (List (Option W)) → Except Err (List (List (Option W)))
  | o :: os, rows :: rest, w :: ws =>
    match getInputs padding padTo rows with
    | .error e => .error e
    | .ok batch =>
      match updateMetrics batch o.2 w with
      | .error e => .error e
      | .ok u =>
        match updateOutputs padding padTo os rest ws with
        | .error e => .error e
        | .ok us => .ok (u :: us)
  | _, _, _ => .ok []

/-- tf_metric_wrapper.py 558–579 `_process_batch`; `len_inputs` is the number of rows of the first output
(tf_metric_accumulators.py 88–90), `clear_inputs` 103–108 and 254–257. -/
def processBatch (c : Combiner W V) (a : Acc W) : Except Err (Acc W) :=
  match a.inputs with
  | [] => .error .indexError
  | first :: _ =>
    if first.length = 0 then .ok a
    else
      match updateOutputs c.padding a.padTo c.outputs a.inputs a.weights with
      | .error e => .error e
      | .ok ws => .ok { inputs := a.inputs.map fun _ => [], weights := ws, size := 0, padTo := 0 }

/-- tf_metric_accumulators.py 201–215 and 92–97: one row for one output. -/
def addRow (padding : Option Padding) (o : ℕ) (a : Acc W) (r : Row) : Acc W :=
  { a with
    inputs := a.inputs.modify o (· ++ [r])
    size := a.size + r.bytes
    padTo := if padding.isSome then max (max a.padTo r.label.vals.length) r.pred.vals.length else a.padTo }

/-- tf_metric_wrapper.py 602–627: the loop over the outputs from output `o` on. -/
def addRows (padding : Option Padding) : ℕ → Acc W → List (Except Err (List Row)) → Except Err (Acc W)
  | _, a, [] => .ok a
  | _, _, .error e :: _ => .error e
  | o, a, .ok rows :: rest => addRows padding (o + 1) (rows.foldl (addRow padding o) a) rest

/-- tf_metric_accumulators.py 122–127 `should_flush`. -/
def shouldFlush (c : Combiner W V) (a : Acc W) : Bool :=
  decide (batchSize c.desired ≤ ((a.inputs.head?.getD []).length : ℤ)) || decide (sizeThreshold ≤ a.size)

/-- tf_metric_wrapper.py 597–630 `add_input` and 654–659 `compact`. -/
def step (c : Combiner W V) (a : Acc W) : Event → Except Err (Acc W)
  | .compact => processBatch c a
  | .add x =>
    match addRows c.padding 0 a x with
    | .error e => .error e
    | .ok b => if shouldFlush c b then processBatch c b else .ok b

/-- tf_metric_wrapper.py 643–651: `add_weights` for the weights that are not `None`. -/
def mergeWeight (cur w : Option W) : Option W :=
  match w with
  | none => cur
  | some w => addWeights cur w

/-- tf_metric_wrapper.py 639–651: one accumulator merged into the result. -/
def mergeOne (c : Combiner W V) (r b : Acc W) : Except Err (Acc W) :=
  match processBatch c b with
  | .error e => .error e
  | .ok b => .ok { r with weights := List.zipWith (List.zipWith mergeWeight) r.weights b.weights }

/-- tf_metric_wrapper.py 632–652 `merge_accumulators`. -/
def merge (c : Combiner W V) : List (Acc W) → Except Err (Acc W)
  | [] => .error .stopIteration
  | a :: as =>
    match processBatch c a with
    | .error e => .error e
    | .ok r => loop (mergeOne c) r as

/-- tf_metric_wrapper.py 495–659 `_CompilableMetricsCombiner` as a combiner of events. -/
def combineFn (c : Combiner W V) : CombineFn Event (Acc W) where
  create := create c
  addInput := step c
  merge := merge c

/-- tf_metric_wrapper.py 666–673 `make_metric_key`. -/
def resultKey (c : Combiner W V) (output name : String) : MetricKey :=
  { name := name, modelName := c.modelName, outputName := output, subKey := c.subKey, exampleWeighted := some c.exampleWeighted }

/-- tf_metric_wrapper.py 678–690: the results of one metric. -/
def metricResults (c : Combiner W V) (output : String) (m : Metric W V) (w : Option W) : List (MetricKey × V) :=
  match m.result (w.getD m.initial) with
  | .single v => [(resultKey c output m.name, v)]
  | .named vs => vs.map fun p => (resultKey c output (m.name ++ "/" ++ p.1), p.2)

/-- tf_metric_wrapper.py 675–691: all the results; assignment to a dictionary. -/
def results (c : Combiner W V) (weights : List (List (Option W))) : Dict MetricKey V :=
  ((List.zipWith (fun o ws => (List.zipWith (metricResults c o.1) o.2 ws).flatten) c.outputs weights).flatten).foldl
    (fun d p => Dict.set d p.1 p.2) []

/-- tf_metric_wrapper.py 661–691 `extract_output`. -/
def extract (c : Combiner W V) (a : Acc W) : Except Err (Dict MetricKey V) :=
  match processBatch c a with
  | .error e => .error e
  | .ok a => .ok (results c a.weights)

/-! ### The computations -/

/-- tf_metric_wrapper.py 245–268 `_verify_and_update_sub_key`. -/
def verifySubKey (sub : Option SubKey) (m : Metric W V) : Except Err (Option SubKey) :=
  match m.classId with
  | some i =>
    match sub with
    | some s => if s.classId ≠ some i then .error .valueError else (SubKey.new (some i) none none).map some
    | none => (SubKey.new (some i) none none).map some
  | none =>
    match m.topK with
    | some k =>
      match sub with
      | some s => if s.topK ≠ some k then .error .valueError else (SubKey.new none none (some k)).map some
      | none => (SubKey.new none none (some k)).map some
    | none => .ok sub

/-- tf_metric_wrapper.py 167–188 `_filter_duplicate_metrics`, one output: a later metric replaces an earlier one of the same name and
sub key, at the place of the earlier one. -/
def uniqueMetrics (sub : Option SubKey) :
    Dict (String × Option SubKey) (Metric W V) → List (Metric W V) → Except Err (List (Metric W V))
  | d, [] => .ok (d.map Prod.snd)
  | d, m :: ms =>
    match verifySubKey sub m with
    | .error e => .error e
    | .ok k => uniqueMetrics sub (Dict.set d (m.name, k) m) ms

/-- tf_metric_wrapper.py 167–188, all outputs. -/
def filterDuplicates (sub : Option SubKey) : List (String × List (Metric W V)) → Except Err (List (String × List (Metric W V)))
  | [] => .ok []
  | o :: os =>
    match uniqueMetrics sub [] o.2 with
    | .error e => .error e
    | .ok ms =>
      match filterDuplicates sub os with
      | .error e => .error e
      | .ok rest => .ok ((o.1, ms) :: rest)

/-- tf_metric_wrapper.py 221–231: the metric is computed from confusion matrices. -/
def usesMatrices (m : Metric W V) : Bool := m.matrix && !m.topK.isSome

/-- tf_metric_wrapper.py 204–242: the metrics of the other kind, outputs without any left out. -/
def others (metrics : List (String × List (Metric W V))) : List (String × List (Metric W V)) :=
  (metrics.map fun o => (o.1, o.2.filter fun m => !usesMatrices m)).filter fun o => !o.2.isEmpty

/-- The metrics of one sub key: the keys declared for them and the metrics of each output in order. (tf_metric_wrapper.py 282–312) -/
structure Group (W V : Type) where
  keys : List MetricKey := []
  outputs : List (String × List (Metric W V)) := []

/-- tf_metric_wrapper.py 287–312: one metric is put into its group. -/
def Group.add (g : Group W V) (key : MetricKey) (output : String) (m : Metric W V) : Group W V where
  keys := g.keys ++ [key]
  outputs := Dict.set g.outputs output ((Dict.get? g.outputs output).getD [] ++ [m])

/-- The arguments of `tf_metric_computations` besides the metrics. (tf_metric_wrapper.py 45–54) -/
structure Request where
  modelName : String := ""
  subKey : Option SubKey := none
  aggregation : Option AggregationType := none
  exampleWeighted : Bool := false
  desired : Option ℤ := none
  deriving DecidableEq, Repr

/-- tf_metric_wrapper.py 294–303: the key declared for a metric. -/
def declaredKey (r : Request) (output : String) (k : Option SubKey) (m : Metric W V) : MetricKey :=
  { name := m.name, modelName := r.modelName, outputName := output, subKey := k, aggregationType := r.aggregation,
    exampleWeighted := some r.exampleWeighted }

/-- tf_metric_wrapper.py 274–312 `_metric_keys_and_configs`. -/
def groups (r : Request) : Dict (Option SubKey) (Group W V) → List (String × Metric W V) →
    Except Err (Dict (Option SubKey) (Group W V))
  | d, [] => .ok d
  | d, (o, m) :: rest =>
    match verifySubKey r.subKey m with
    | .error e => .error e
    | .ok k => groups r (Dict.set d k (((Dict.get? d k).getD {}).add (declaredKey r o k m) o m)) rest

/-- Insertion into a list sorted by name. (tf_metric_wrapper.py 518 `sorted`) -/
def insertOutput (x : String × List (Metric W V)) : List (String × List (Metric W V)) → List (String × List (Metric W V))
  | [] => [x]
  | y :: ys => if x.1 ≤ y.1 then x :: y :: ys else y :: insertOutput x ys

/-- tf_metric_wrapper.py 518–520 and 545–556: outputs in the order of their names, metrics before losses. -/
def arrange (outputs : List (String × List (Metric W V))) : List (String × List (Metric W V)) :=
  (outputs.foldr insertOutput []).map fun o => (o.1, o.2.filter (fun m => !m.isLoss) ++ o.2.filter (fun m => m.isLoss))

/-- tf_metric_wrapper.py 527–531: `_sub_key_in_config`. -/
def subKeyInConfig (sub : Option SubKey) (outputs : List (String × List (Metric W V))) : Bool :=
  match sub with
  | none => false
  | some s => s.topK.isSome && outputs.all fun o => (o.2.filter fun m => !m.isLoss).all fun m => m.topK.isSome

/-- tf_metric_wrapper.py 618: the sub key the inputs of the metrics are restricted to. -/
def inputSubKey (sub : Option SubKey) (outputs : List (String × List (Metric W V))) : Option SubKey :=
  if subKeyInConfig sub outputs then none else sub

/-- One computation: the keys it declares, its combiner, and the sub key its inputs are restricted to.
(tf_metric_wrapper.py 144–162) -/
structure Computation (W V : Type) where
  keys : List MetricKey
  combiner : Combiner W V
  inputSubKey : Option SubKey

/-- tf_metric_wrapper.py 135–162: the computations of the metrics that are not computed from confusion matrices. -/
def computation (r : Request) (padding : Option Padding) (p : Option SubKey × Group W V) : Computation W V where
  keys := p.2.keys
  combiner :=
    { outputs := arrange p.2.outputs, padding := padding, desired := r.desired, modelName := r.modelName, subKey := p.1,
      exampleWeighted := r.exampleWeighted }
  inputSubKey := inputSubKey p.1 p.2.outputs

/-- tf_metric_wrapper.py 45–164 `tf_metric_computations`, without the metrics computed from confusion matrices. -/
def computations (r : Request) (padding : Option Padding) (metrics : List (String × List (Metric W V))) :
    Except Err (List (Computation W V)) :=
  if r.aggregation.isSome && metrics.any fun o => o.2.any fun m => m.sparse then .error .valueError
  else
    match filterDuplicates r.subKey metrics with
    | .error e => .error e
    | .ok ms =>
      match groups r [] ((others ms).flatMap fun o => o.2.map fun m => (o.1, m)) with
      | .error e => .error e
      | .ok gs => .ok (gs.map (computation r padding))

/-- tf_metric_wrapper.py 478–492 `_LossMetric` with a loss that is averaged over the batch (the default reduction of Keras losses):
`tf_keras.metrics.Mean` is given that one number together with the example weights of the batch, and adds the number times each
weight to its total, and each weight to its count. -/
def lossMetric (name : String) (loss : List ℚ → List ℚ → ℚ) : Metric (ℚ × ℚ) ℚ where
  name := name
  isLoss := true
  initial := 0
  update rows :=
    let mean := (rows.map fun r => loss r.label.vals r.pred.vals).sum / rows.length
    .ok ((rows.map fun r => mean * r.weight).sum, (rows.map fun r => r.weight).sum)
  result w := .single (w.1 / w.2)

end TfMetrics
end TFMA
