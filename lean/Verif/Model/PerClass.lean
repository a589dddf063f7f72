import Verif.Model.Inputs
import Verif.Model.Combiners

/-!
# The computations of the metrics that are one number

calibration.py, cross_entropy_metrics.py, exact_match.py, mean_regression_error.py, squared_pearson_correlation.py and
tjur_discrimination.py of metrics/: the functions that create the computations of a metric for one model, output and sub key, with the
arguments their combiners pass to `to_label_prediction_example_weight`; and `merge_per_key_computations` of metric_util.py, which calls
them for all models, outputs and sub keys.

What a combiner makes of the labels, predictions and weights it is given (with the options of its constructor) is a parameter of the
model, named by the class of the combiner; what a derived metric makes of the value it is derived from is another, named by the metric.
-/

namespace TFMA
namespace PerClass

open MetricKeys Inputs

/-- The arguments of a function that creates computations. (metric_types.py 745–819; metric_util.py 1223–1228) -/
structure Call where
  name : String
  specs : List ModelSpec := []
  model : String := ""
  output : String := ""
  subKey : Option SubKey := none
  aggregation : Option AggregationType := none
  classWeights : Dict ℤ ℚ := []
  exampleWeighted : Bool := false

/-- A computation: a combiner with the arguments it passes to `to_label_prediction_example_weight`, or a value derived from
another. (metric_types.py 583–700) -/
inductive Comp where
  | base (key : MetricKey) (cls : String) (args : Args)
  | derived (key : MetricKey) (fn : String) (dep : MetricKey)

/-- The key all these functions make of their arguments. (calibration.py 57–63) -/
def Call.key (c : Call) : MetricKey :=
  { name := c.name, modelName := c.model, outputName := c.output, subKey := c.subKey, exampleWeighted := some c.exampleWeighted }

/-- The arguments all combiners pass on, but for the sub key. (calibration.py 325–335) -/
def Call.args (c : Call) : Args :=
  { specs := c.specs, model := c.model, output := c.output, aggregated := c.aggregation.isSome, classWeights := c.classWeights,
    exampleWeighted := c.exampleWeighted }

/-- calibration.py 234–277 `_weighted_labels_predictions_examples`, with the call of 321–335. -/
def weightedExamples (c : Call) : List Comp :=
  let c := { c with name := "_weighted_labels_predictions_examples" }
  [.base c.key "_WeightedLabelsPredictionsExamplesCombiner" { c.args with subKey := c.key.subKey, allowNone := true }]

/-- The key of the last computation. (calibration.py 75, 142, 213) -/
def lastKey : List Comp → MetricKey
  | [] => { name := "" }
  | [.base k _ _] => k
  | [.derived k _ _] => k
  | _ :: cs => lastKey cs

/-- The key of the first computation. (tjur_discrimination.py 89, 173) -/
def firstKey : List Comp → MetricKey
  | .base k _ _ :: _ => k
  | .derived k _ _ :: _ => k
  | [] => { name := "" }

/-- calibration.py 46–92 `_mean_label`. -/
def meanLabel (c : Call) : List Comp :=
  let cs := weightedExamples c
  cs ++ [.derived c.key "mean_label" (lastKey cs)]

/-- calibration.py 113–159 `_mean_prediction`. -/
def meanPrediction (c : Call) : List Comp :=
  let cs := weightedExamples c
  cs ++ [.derived c.key "mean_prediction" (lastKey cs)]

/-- calibration.py 184–231 `_calibration`. -/
def calibration (c : Call) : List Comp :=
  let cs := weightedExamples c
  cs ++ [.derived c.key "calibration" (lastKey cs)]

/-- cross_entropy_metrics.py 63–119 `_binary_cross_entropy_computations`, with the call of 289–299. -/
def binaryCrossEntropy (c : Call) : List Comp :=
  [.base c.key "_BinaryCrossEntropyCombiner" { c.args with subKey := c.key.subKey, flatten := false }]

/-- cross_entropy_metrics.py 159–215 `_categorical_cross_entropy_computations`, with the call of 289–299. -/
def categoricalCrossEntropy (c : Call) : List Comp :=
  [.base c.key "_CategoricalCrossEntropyCombiner" { c.args with subKey := c.key.subKey, flatten := false }]

/-- mean_regression_error.py 56–106 `_mean_absolute_error_computations`, with the call of 412–421. -/
def meanAbsoluteError (c : Call) : List Comp :=
  [.base c.key "_MeanAbsoluteErrorCombiner" { c.args with subKey := c.key.subKey }]

/-- mean_regression_error.py 137–187 `_mean_absolute_percentage_error_computations`, with the call of 412–421. -/
def meanAbsolutePercentageError (c : Call) : List Comp :=
  [.base c.key "_MeanAbsolutePercentageErrorCombiner" { c.args with subKey := c.key.subKey }]

/-- mean_regression_error.py 217–267 `_mean_squared_error_computations`, with the call of 412–421. -/
def meanSquaredError (c : Call) : List Comp :=
  [.base c.key "_MeanSquaredErrorCombiner" { c.args with subKey := c.key.subKey }]

/-- mean_regression_error.py 301–350 `_mean_squared_logarithmic_error_computations`, with the call of 412–421. -/
def meanSquaredLogarithmicError (c : Call) : List Comp :=
  [.base c.key "_MeanSquaredLogarithmicErrorCombiner" { c.args with subKey := c.key.subKey }]

/-- exact_match.py 54–86 `_exact_match`, with the call of 133–145: the sub key is not passed on. -/
def exactMatch (c : Call) : List Comp := [.base c.key "_ExactMatchCombiner" c.args]

/-- squared_pearson_correlation.py 45–71 `_squared_pearson_correlation`, with the call of 120–132: the sub key is not passed on. -/
def squaredPearson (c : Call) : List Comp := [.base c.key "_SquaredPearsonCorrelationCombiner" c.args]

/-- tjur_discrimination.py 207–235 `_tjur_discrimination`, with the call of 280–292: neither takes a sub key. -/
def tjurDiscrimination (c : Call) : List Comp :=
  let c := { c with name := "_tjur_discrimination", subKey := none }
  [.base c.key "_TjurDiscriminationCombiner" c.args]

/-- tjur_discrimination.py 60–117 `_coefficient_of_discrimination`. -/
def coefficientOfDiscrimination (c : Call) : List Comp :=
  let cs := tjurDiscrimination c
  cs ++ [.derived c.key "coefficient_of_discrimination" (firstKey cs)]

/-- tjur_discrimination.py 148–204 `_relative_coefficient_of_discrimination`; it takes no sub key. -/
def relativeCoefficientOfDiscrimination (c : Call) : List Comp :=
  let cs := tjurDiscrimination c
  cs ++ [.derived c.key "relative_coefficient_of_discrimination" (firstKey cs)]

/-- metric_util.py 1181–1230 `merge_computations_fn`; a function without an argument `sub_key` (`takesSubKey`) is called without
one. All the functions above take class weights and example weights. -/
def mergePerKey (takesSubKey : Bool) (create : Call → List Comp) (c : Call) (models outputs : List String)
    (subKeys : List (Option SubKey)) : List Comp :=
  models.flatMap fun m => outputs.flatMap fun o => subKeys.flatMap fun s =>
    create { c with model := m, output := o, subKey := if takesSubKey then s else none }

variable {V : Type}

/-- One computation over the data: the combiner is given what `to_label_prediction_example_weight` yields for each example; a
derived value is computed from one already there. (evaluators/metrics_plots_and_validations_evaluator.py 401–443, 610–619) -/
def runOne (sem : String → Args → List (Except Err (List Item)) → Except Err V) (res : String → V → V)
    (part : ℕ → List Fl → List ℕ) (data : List Raw) (d : Dict MetricKey V) : Comp → Except Err (Dict MetricKey V)
  | .base k cls a => match sem cls a (data.map (toLabelPredictionWeight part a)) with
    | .error e => .error e
    | .ok v => .ok (Dict.set d k v)
  | .derived k fn dep => match Dict.get? d dep with
    | none => .error .keyError
    | some v => .ok (Dict.set d k (res fn v))

/-- The computations one after the other. (evaluators/metrics_plots_and_validations_evaluator.py 401–443, 610–619) -/
def run (sem : String → Args → List (Except Err (List Item)) → Except Err V) (res : String → V → V)
    (part : ℕ → List Fl → List ℕ) (data : List Raw) : Dict MetricKey V → List Comp → Except Err (Dict MetricKey V)
  | d, [] => .ok d
  | d, c :: cs => match runOne sem res part data d c with
    | .error e => .error e
    | .ok d => run sem res part data d cs

end PerClass
end TFMA
