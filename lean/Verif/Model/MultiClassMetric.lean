import Mathlib.Data.List.Sort
import Verif.Model.MultiClass
import Verif.Model.MetricSpecs

/-!
# Multi-class confusion matrices as metrics, plots and values

metrics/multi_class_confusion_matrix_metrics.py without its combiner (Model/MultiClass), and
metrics/multi_class_confusion_matrix_plot.py.
-/

namespace TFMA
namespace MultiClass

open Beam MetricKeys Evaluate

/-- multi_class_confusion_matrix_metrics.py 128 `_EPSILON`. -/
def eps : ℚ := 1 / 10 ^ 7

/-- multi_class_confusion_matrix_metrics.py 170–180: the thresholds of the combiner. -/
def thresholdsOf (thresholds : Option (List ℚ)) (num : Option ℤ) : Except Err (List ℚ) :=
  match num, thresholds with
  | some _, some _ => .error .valueError
  | none, none => .ok [0]
  | none, some ts => .ok ts
  | some n, none => .ok (-eps :: ((List.range (n - 2).toNat).map fun (i : ℕ) => ((i : ℚ) + 1) * 1 / (n - 1)) ++ [1 + eps])

/-! ### Values -/

/-- A dictionary with the given keys. (multi_class_confusion_matrix_metrics.py 222–231: the loops over the keys) -/
def build {K V : Type} (f : K → Except Err V) : List K → Except Err (Dict K V)
  | [] => .ok []
  | k :: ks => do
    let v ← f k
    let d ← build f ks
    return (k, v) :: d

/-- `set(a).union(b)`; the order of a python set is arbitrary, here it is the order of the dictionaries.
(multi_class_confusion_matrix_metrics.py 221, 226) -/
def unionKeys {K V : Type} [DecidableEq K] (a b : Dict K V) : List K := a.keys ++ b.keys.filter fun k => k ∉ a.keys

/-- multi_class_confusion_matrix_metrics.py 225–230: the entries of a threshold. -/
def opEntries (op : ℚ → ℚ → Except Err ℚ) (a b : Dict EntryKey ℚ) : Except Err (Dict EntryKey ℚ) :=
  build (fun k => op ((Dict.get? a k).getD 0) ((Dict.get? b k).getD 0)) (unionKeys a b)

/-- multi_class_confusion_matrix_metrics.py 217–231 `_apply_binary_op_elementwise`. -/
def elementwise (op : ℚ → ℚ → Except Err ℚ) (a b : Acc) : Except Err Acc :=
  build (fun t => opEntries op ((Dict.get? a t).getD []) ((Dict.get? b t).getD [])) (unionKeys a b)

/-- multi_class_confusion_matrix_metrics.py 238–240: the entries of a threshold. -/
def opEach (op : ℚ → ℚ → Except Err ℚ) (x : ℚ) : Dict EntryKey ℚ → Except Err (Dict EntryKey ℚ)
  | [] => .ok []
  | (k, v) :: rest => do
    let w ← op v x
    let d ← opEach op x rest
    return (k, w) :: d

/-- multi_class_confusion_matrix_metrics.py 233–241 `_apply_binary_op_broadcast`. -/
def broadcast (op : ℚ → ℚ → Except Err ℚ) (x : ℚ) : Acc → Except Err Acc
  | [] => .ok []
  | (t, row) :: rest => do
    let r ← opEach op x row
    let d ← broadcast op x rest
    return (t, r) :: d

/-- The right operand of an operator. (api/types.py 325–341; `other` is neither a number nor of the same class) -/
inductive Operand where
  | matrices (a : Acc)
  | number (x : ℚ)
  | other

/-- api/types.py 325–341 `_apply_binary_op`, on multi-class matrices. -/
def applyOp (op : ℚ → ℚ → Except Err ℚ) (a : Acc) : Operand → Except Err Acc
  | .matrices b => elementwise op a b
  | .number x => broadcast op x a
  | .other => .error .valueError

/-- metrics_for_slice.proto `MultiClassConfusionMatrix`: actual class, predicted class, count. (class ids are 32 bit integers there)
(multi_class_confusion_matrix_metrics.py 256–264) -/
structure ProtoMatrix where
  threshold : ℚ
  entries : List (ℤ × ℤ × ℚ)
  deriving DecidableEq, Repr

/-- multi_class_confusion_matrix_metrics.py 249–255. -/
def protoThreshold (t : ℚ) : ℚ := if t = -eps then 0 else if t = 1 + eps then 1 else t

/-- The order of `MatrixEntryKey`, a named tuple. (multi_class_confusion_matrix_metrics.py 259) -/
def keyLe (a b : EntryKey) : Prop := a.1 < b.1 ∨ a.1 = b.1 ∧ a.2 ≤ b.2

instance : DecidableRel keyLe := fun a b => inferInstanceAs (Decidable (a.1 < b.1 ∨ a.1 = b.1 ∧ a.2 ≤ b.2))

/-- multi_class_confusion_matrix_metrics.py 259–264: the entries of a matrix. -/
def protoEntries (row : Dict EntryKey ℚ) : List (ℤ × ℤ × ℚ) :=
  (row.keys.insertionSort keyLe).map fun k => (k.1, k.2, (Dict.get? row k).getD 0)

/-- multi_class_confusion_matrix_metrics.py 243–265 `to_proto`. -/
def toProto (a : Acc) : List ProtoMatrix :=
  (a.keys.insertionSort (· ≤ ·)).map fun t => ⟨protoThreshold t, protoEntries ((Dict.get? a t).getD [])⟩

/-! ### Computations -/

/-- A metric `MultiClassConfusionMatrixAtThresholds` (multi_class_confusion_matrix_metrics.py 39–72) or a plot
`MultiClassConfusionMatrixPlot` (multi_class_confusion_matrix_plot.py 28–67) of one output of one model; only plots have
`num`. -/
structure Task where
  plot : Bool := false
  thresholds : Option (List ℚ) := none
  num : Option ℤ := none
  name : String
  modelName : String := ""
  outputName : String := ""
  weighted : Bool := false

/-- What is stored under a key: matrices, or the plot of matrices. (multi_class_confusion_matrix_metrics.py 107–116,
multi_class_confusion_matrix_plot.py 106–118) -/
inductive Value where
  | matrices (a : Acc)
  | plot (p : List ProtoMatrix)
  deriving DecidableEq

/-- The key of the result. (multi_class_confusion_matrix_metrics.py 90–95, multi_class_confusion_matrix_plot.py 86–91) -/
def Task.key (t : Task) : MetricKey :=
  { name := t.name, modelName := t.modelName, outputName := t.outputName, exampleWeighted := some t.weighted }

/-- The key of the matrices: the name is always the default. (multi_class_confusion_matrix_metrics.py 126, 182–187) -/
def Task.matricesKey (t : Task) : MetricKey :=
  { name := "_multi_class_confusion_matrices", modelName := t.modelName, outputName := t.outputName,
    exampleWeighted := some t.weighted }

/-- The thresholds of the combiner: multi_class_confusion_matrix_metrics.py 87–88 and 98–104 for metrics,
multi_class_confusion_matrix_plot.py 83–84 and 94–103 for plots. -/
def Task.resolve (t : Task) : Except Err (List ℚ) :=
  if t.plot then
    thresholdsOf (if t.num = none ∧ t.thresholds = none then some [0] else t.thresholds) t.num
  else thresholdsOf (some (if t.thresholds = none ∨ t.thresholds = some [] then [1 / 2] else t.thresholds.getD [])) none

/-- A combiner or a derived result. (metrics/metric_types.py 520–656) -/
inductive Work where
  | combine (ts : List ℚ)
  | derive (f : Results Value → Except Err (Results Value))

/-- The function of the derived computation: multi_class_confusion_matrix_metrics.py 107–116,
multi_class_confusion_matrix_plot.py 106–118. -/
def Task.result (t : Task) (d : Results Value) : Except Err (Results Value) :=
  match Dict.get? d t.matricesKey with
  | none => .error .keyError
  | some (_, v) =>
    if t.plot then
      match v with
      | .matrices a => .ok [(t.key, .plot, .plot (toProto a))]
      | .plot _ => .error .attributeError
    else .ok [(t.key, .metric, v)]

/-- multi_class_confusion_matrix_metrics.py 78–123 and 182–200, multi_class_confusion_matrix_plot.py 73–125: the computations of a task. -/
def Task.computations (t : Task) : Except Err (List (Computation Work)) := do
  let ts ← t.resolve
  return [⟨.metric, "_MultiClassConfusionMatrixCombiner", [t.matricesKey], [], .combine ts⟩,
    ⟨.derived, "function", [t.key], [], .derive t.result⟩]

/-- The results of the combiners of a slice. (metrics_plots_and_validations_evaluator.py 401–443: every combiner sees the same
elements) -/
def combineAll (s : Sched (Except Err Example)) : List (Computation Work) → Results Value → Except Err (Results Value)
  | [], d => .ok d
  | c :: cs, d =>
    match c.body with
    | .derive _ => combineAll s cs d
    | .combine ts => do
      let a ← (combiner ts).run s
      combineAll s cs (updateWith d (c.keys.map fun k => (k, .metric, .matrices a)))

/-- The derived computations, as functions. (metrics_plots_and_validations_evaluator.py 610–619) -/
def derivedOnly (cs : List (Computation Work)) : List (Computation (Results Value → Except Err (Results Value))) :=
  cs.filterMap fun c => match c.body with
    | .derive f => some ⟨c.kind, c.className, c.keys, c.preprocessors, f⟩
    | .combine _ => none

/-- The results of tasks for a slice, before private metrics are removed: computations that are equal are run once
(metrics_plots_and_validations_evaluator.py 131–196), then come the derived ones (610–619). -/
def evaluate (tasks : List Task) (s : Sched (Except Err Example)) : Except Err (Results Value) := do
  let cs ← MetricSpecs.flatMapE Task.computations tasks
  let sep ← separate cs
  let d ← combineAll s sep.nonDerived []
  addDerived (derivedOnly sep.derived) d

end MultiClass
end TFMA
