import Verif.Model.Inputs

/-!
# Metrics that share the examples they read

`_ComputationsCombineFn` of evaluators/metrics_plots_and_validations_evaluator.py hands the same example to the combiners of all metrics
of a slice, one after the other, and the slices an example belongs to share it as well (slicer/slicer_lib.py 680–702).
`to_label_prediction_example_weight` returns the array of predictions of the example itself unless a sub key selects from it, and
`_CategoricalCrossEntropyCombiner` divides this array in place.

The model keeps the examples in a store that outlives the calls.  Predictions are one array of floats without dictionaries of models and
outputs; rounding is not modelled.  What a combiner makes of the values it is given is a parameter.  A runner that copies examples between
slices is not modelled.
-/

namespace TFMA
namespace InPlace

open MetricKeys Inputs

/-- A standard metric input. (metric_types.py 939–984) -/
structure Example where
  label : Arr ℚ
  prediction : Arr Fl
  weight : Option (Arr ℚ)
  deriving DecidableEq, Repr

/-- As `to_label_prediction_example_weight` takes it. (metrics/metric_util.py 583–650) -/
def Example.raw (x : Example) : Raw := ⟨.leaf (some x.label), .leaf (some x.prediction), .leaf x.weight⟩

/-- `np.sum`. (numpy) -/
def total : List Fl → Fl
  | [] => .fin 0
  | x :: xs => Fl.add x (total xs)

/-- cross_entropy_metrics.py 387 `prediction /= np.sum(prediction)`. -/
def normalise (p : Arr Fl) : Arr Fl := ⟨p.shape, p.data.map fun x => Fl.div x (total p.data)⟩

variable {Acc : Type}

/-- A combiner: what it passes to `to_label_prediction_example_weight`, whether it is categorical cross entropy of probabilities
(without `from_logits`), and what it does with each tuple. (cross_entropy_metrics.py 284–310, 366–397) -/
structure Metric (Acc : Type) where
  args : Args
  divides : Bool
  add : Acc → Item → Except Err Acc

/-- The predictions are those of the example itself and no copy: there is no sub key or one that selects nothing.
(metrics/metric_util.py 673–701) -/
def shares (a : Args) : Bool :=
  match a.subKey with
  | none => true
  | some s => s.k.isNone && s.topK.isNone && s.classId.isNone

/-- The tuples as the combiner sees them after it has divided. (cross_entropy_metrics.py 366–397) -/
def prepared (m : Metric Acc) (i : Item) : Item :=
  if m.divides then { i with prediction := normalise i.prediction } else i

/-- The example as `add_input` leaves it. (cross_entropy_metrics.py 289–310, 387) -/
def left (m : Metric Acc) (x : Example) : Example :=
  if m.divides && shares m.args then { x with prediction := normalise x.prediction } else x

/-- The tuples one after the other. (cross_entropy_metrics.py 300–308) -/
def addItems (f : Acc → Item → Except Err Acc) : Acc → List Item → Except Err Acc
  | a, [] => .ok a
  | a, i :: is => match f a i with
    | .error e => .error e
    | .ok a => addItems f a is

/-- `add_input` of a combiner. (cross_entropy_metrics.py 284–310) -/
def addOne (part : ℕ → List Fl → List ℕ) (m : Metric Acc) (acc : Acc) (x : Example) : Except Err Acc :=
  match toLabelPredictionWeight part m.args x.raw with
  | .error e => .error e
  | .ok items => addItems m.add acc (items.map (prepared m))

/-- evaluators/metrics_plots_and_validations_evaluator.py 417–433 `add_input`: the combiners in order, each finding the example as the ones
before have left it. -/
def addInput (part : ℕ → List Fl → List ℕ) : List (Metric Acc) → List Acc → Example → Except Err (List Acc × Example)
  | m :: ms, a :: accs, x => match addOne part m a x with
    | .error _ => .error .runtimeError
    | .ok a' => match addInput part ms accs (left m x) with
      | .error e => .error e
      | .ok (accs', x') => .ok (a' :: accs', x')
  | _, _, x => .ok ([], x)

/-- The accumulators of each slice and the examples. (slicer/slicer_lib.py 680–702) -/
structure State (Acc : Type) where
  accs : ℕ → List Acc
  store : List Example

/-- An example is added to a slice. (slicer/slicer_lib.py 680–702; evaluators/metrics_plots_and_validations_evaluator.py 417–433) -/
def event (part : ℕ → List Fl → List ℕ) (ms : List (Metric Acc)) (st : State Acc) (slice ex : ℕ) : Except Err (State Acc) :=
  match st.store[ex]? with
  | none => .error .keyError
  | some x => match addInput part ms (st.accs slice) x with
    | .error e => .error e
    | .ok (as, x') => .ok ⟨fun s => if s = slice then as else st.accs s, st.store.set ex x'⟩

/-- Examples are added to slices in some order. (slicer/slicer_lib.py 680–702) -/
def runEvents (part : ℕ → List Fl → List ℕ) (ms : List (Metric Acc)) : State Acc → List (ℕ × ℕ) → Except Err (State Acc)
  | st, [] => .ok st
  | st, (s, e) :: evs => match event part ms st s e with
    | .error e => .error e
    | .ok st => runEvents part ms st evs

end InPlace
end TFMA
