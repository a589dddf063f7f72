import Verif.Model.SpecBuild
import Verif.Model.TfMetrics

/-!
# Keras metrics and losses of metrics specs (metrics/metric_specs.py 902–1036)

Line numbers without a file refer to metrics/metric_specs.py.  A spec comes with the instances of its Keras metrics and losses.
-/

namespace TFMA
namespace TfSpecs

open MetricKeys MetricSpecs

variable {W V B S T C : Type}

/-- 910–921 `UniqueArgs`. -/
structure UniqueArgs where
  model : String
  subKey : Option SubKey
  aggregation : Option AggregationType
  classWeights : List (ℤ × ℚ)
  deriving DecidableEq

/-- Insertion by class. (`sorted`, 960) -/
def insertWeight (x : ℤ × ℚ) : List (ℤ × ℚ) → List (ℤ × ℚ)
  | [] => [x]
  | y :: ys => if x.1 ≤ y.1 then x :: y :: ys else y :: insertWeight x ys

/-- 960: the class weights in the order of the classes. -/
def sortedWeights (cw : List (ℤ × ℚ)) : List (ℤ × ℚ) := cw.foldr insertWeight []

/-- 1316–1326 `_private_tf_metric`, 1351–1357 `_private_tf_loss`: the same metric under a private name. -/
def privateTf (m : TfMetrics.Metric W V) : TfMetrics.Metric W V := { m with name := privateName m.name }

/-- Metrics by output name. (943) -/
abbrev ByOutput (W V : Type) := Dict String (List (TfMetrics.Metric W V))

/-- What is added to the groups at once: the metrics for some arguments and output, in the given variants. (981–1005) -/
structure Entry (W V : Type) where
  args : UniqueArgs
  output : String
  metrics : List (TfMetrics.Metric W V)
  options : List Bool

/-- 958–1005: the entries of one aggregation type of a spec; `shared` are the sub keys of the binarization. -/
def aggregationEntries (models : List WeightSpec) (s : Spec B S T) (ms : List (TfMetrics.Metric W V)) (shared : List (Option SubKey))
    (agg : Option AggregationType) (parents : List (Option SubKey)) : Except Err (List (Entry W V)) :=
  match weightsFor s agg with
  | .error e => .error e
  | .ok cw =>
    if isMacro agg then
      flatMapE (fun parent => match macroSubKeys parent cw with
        | .error e => .error e
        | .ok children => .ok ((orEmpty s.outputNames).flatMap fun o => children.flatMap fun sk => (orEmpty s.modelNames).map fun model =>
            ⟨⟨model, sk, none, []⟩, o, if sk ∈ shared then ms else ms.map privateTf, weightOptions models s⟩)) parents
    else
      .ok (parents.flatMap fun sk => (orEmpty s.outputNames).flatMap fun o => (orEmpty s.modelNames).map fun model =>
        ⟨⟨model, sk, agg, sortedWeights (cw.getD [])⟩, o, ms, weightOptions models s⟩)

/-- 945–1005: the entries of a spec. -/
def specEntries (models : List WeightSpec) (p : Spec B S T × List (TfMetrics.Metric W V)) : Except Err (List (Entry W V)) :=
  match createSubKeys p.1 with
  | .error e => .error e
  | .ok subs => flatMapE (fun e => aggregationEntries models p.1 p.2 ((Dict.get? subs none).getD []) e.1 e.2) subs

/-- `d[output_name].append(instance)` of a defaultdict. (999–1005) -/
def append (d : ByOutput W V) (o : String) (m : TfMetrics.Metric W V) : ByOutput W V :=
  Dict.set d o ((Dict.get? d o).getD [] ++ [m])

/-- 998–1005. -/
def addVariant (o : String) (m : TfMetrics.Metric W V) (g : ByOutput W V × ByOutput W V) (ew : Bool) : ByOutput W V × ByOutput W V :=
  if ew then (append g.1 o m, g.2) else (g.1, append g.2 o m)

/-- 988–1005: one entry is added to the groups. -/
def addEntry (d : Dict UniqueArgs (ByOutput W V × ByOutput W V)) (e : Entry W V) : Dict UniqueArgs (ByOutput W V × ByOutput W V) :=
  Dict.set d e.args (e.metrics.foldl (fun g m => e.options.foldl (addVariant e.output m) g) ((Dict.get? d e.args).getD ([], [])))

/-- One call of `tf_metric_computations`: its arguments. (1012–1035) -/
structure Run (W V : Type) where
  request : TfMetrics.Request
  classWeights : Option (Dict ℤ ℚ)
  metrics : ByOutput W V

/-- 1010: `dict(args.class_weights) if args.class_weights else None`. -/
def UniqueArgs.weights (a : UniqueArgs) : Option (Dict ℤ ℚ) := if a.classWeights.isEmpty then none else some a.classWeights

/-- 1012–1035: the call for the weighted or the unweighted metrics of a group, if there are any. -/
def runOf (a : UniqueArgs) (ew : Bool) (ms : ByOutput W V) : List (Run W V) :=
  if ms.isEmpty then [] else [⟨{ modelName := a.model, subKey := a.subKey, aggregation := a.aggregation, exampleWeighted := ew },
    a.weights, ms⟩]

/-- 902–1036 `_process_tf_metrics_specs`: the calls of `tf_metric_computations`. -/
def runs (models : List WeightSpec) (specs : List (Spec B S T × List (TfMetrics.Metric W V))) : Except Err (List (Run W V)) :=
  match flatMapE (specEntries models) specs with
  | .error e => .error e
  | .ok es => .ok ((es.foldl addEntry []).flatMap fun p => runOf p.1 true p.2.1 ++ runOf p.1 false p.2.2)

/-- 1013, 1025: the computations of all calls (without those computed from confusion matrices); `padding` are the padding options of
the models. -/
def process [AddCommMonoid W] (models : List WeightSpec) (padding : String → Option TfMetrics.Padding)
    (specs : List (Spec B S T × List (TfMetrics.Metric W V))) : Except Err (List (TfMetrics.Computation W V)) :=
  match runs models specs with
  | .error e => .error e
  | .ok rs => flatMapE (fun r => TfMetrics.computations r.request (padding r.request.modelName) r.metrics) rs

/-- 767–807: the specs that have Keras metrics or losses, with these; `keras` gives the Keras metric of a configuration. -/
def tfParts (keras : C → Option (TfMetrics.Metric W V)) (specs : List (SpecBuild.Built C B S T)) :
    List (Spec B S T × List (TfMetrics.Metric W V)) :=
  (specs.map fun s => (s.options, s.metrics.filterMap keras)).filter fun p => !p.2.isEmpty

end TfSpecs
end TFMA
