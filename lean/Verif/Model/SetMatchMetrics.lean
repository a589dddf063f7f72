import Verif.Model.SetMatch
import Verif.Model.MatrixSetup
import Verif.Model.Histogram
import Verif.Model.ConfusionMetrics
import Verif.Model.Inputs

/-!
# Set match precision and recall

metrics/set_match_confusion_matrix_metrics.py (line numbers without a file), from the examples over the preprocessor
(metrics/preprocessors/set_match_preprocessors.py), `to_label_prediction_example_weight` and the confusion matrices to the value.
-/

namespace TFMA
namespace SetMatch

open Beam MatrixSetup

variable {C : Type} [DecidableEq C]

/-- One example as the preprocessor finds it in the extracts (preprocessors/set_match_preprocessors.py 129–214). -/
structure Ex (C : Type) where
  labels : List C
  predClasses : List C
  scores : Option (List ℚ)
  exampleWeight : Option ℚ := none
  classWeights : Option (List C × List ℚ) := none

/-- The preprocessor over all examples: an exception fails the evaluation.
(evaluators/metrics_plots_and_validations_evaluator.py 336–353) -/
def allItems (topK : Option ℕ) : List (Ex C) → Except Err (List Item)
  | [] => .ok []
  | x :: xs => match process x.labels x.predClasses x.scores topK x.exampleWeight x.classWeights with
    | .error e => .error e
    | .ok is => match allItems topK xs with
      | .error e => .error e
      | .ok js => .ok (is ++ js)

/-- preprocessors/set_match_preprocessors.py 235–260: what is yielded for a class. -/
def inputsOf (i : Item) : Inputs.Raw :=
  ⟨.leaf (some ⟨[1], [i.label]⟩), .leaf (some ⟨[1], [i.prediction]⟩), .leaf (i.weight.map fun w => ⟨[1], [w]⟩)⟩

/-- Label, prediction and weight are arrays with one value. (calibration_histogram.py 223–225, binary_confusion_matrices.py 640–655) -/
def rowOf (x : Inputs.Item) : Option Bcm.Row := match x.label.data, x.prediction.data, x.weight.data with
  | [l], [p], [w] => some ⟨.fin l, p, w⟩
  | _, _, _ => none

/-- As `rowOf`. (calibration_histogram.py 223–225) -/
def hexampleOf (x : Inputs.Item) : Option Histogram.HExample := match x.label.data, x.prediction.data, x.weight.data with
  | [l], [p], [w] => some ⟨l, p, w⟩
  | _, _, _ => none

/-- A combiner which converts its inputs first. (`add_input` of calibration_histogram.py 200–244 and
binary_confusion_matrices.py 624–660) -/
def comap {δ ε α : Type} (g : δ → ε) (c : CombineFn ε α) : CombineFn δ α :=
  { create := c.create, addInput := fun a x => c.addInput a (g x), merge := c.merge }

/-- binary_confusion_matrices.py 288–488: the matrices are derived from a histogram if a number of thresholds is set, if there is a
single negative threshold or if the thresholds are interpolated ones, otherwise they are counted; `args` has the names, the fractional
labels are always on. -/
def matricesWith (part : ℕ → List Fl → List ℕ) (args : Inputs.Args) (num : Option ℤ) (ts : Option (List Fl)) (s : Sched Item) :
    Except Err (List Bcm.MRow) :=
  let read := fun i => Inputs.toLabelPredictionWeight part { args with fractional := true } (inputsOf i)
  match choose num ts with
  | .error e => .error e
  | .ok (num, ts) =>
    if histogramDefault num ts then
      let c : Histogram.Config := ⟨numBuckets ts, 0, 1, true⟩
      ((comap (fun i => (read i).map (·.filterMap hexampleOf)) (Histogram.combiner c)).run s).bind fun a =>
        (Bcm.histogramResult ts (Histogram.extract a)).map fun cols =>
          ts.zip ((cols.tp.zip (cols.tn.zip (cols.fp.zip cols.fn))).map fun x => ⟨x.1, x.2.1, x.2.2.1, x.2.2.2⟩)
    else
      let c : Bcm.Config := ⟨ts, 100, true⟩
      ((comap (fun i => (read i).map fun l => ⟨l.filterMap rowOf, none⟩) (Bcm.combiner c)).run s).bind fun a =>
        (Bcm.toMatrices (Bcm.extract c a) c.thresholds).map (·.map Prod.fst)

/-- binary_confusion_matrices.py 288–488 for given thresholds. -/
def matrices (part : ℕ → List Fl → List ℕ) (args : Inputs.Args) (ts : List Fl) (s : Sched Item) : Except Err (List Bcm.MRow) :=
  matricesWith part args none (some ts) s

/-- 121–146, 246–271 and confusion_matrix_metrics.py 342–350: with `top_k` the default threshold is -inf, otherwise 0.5; class
weights turn example weights on.  `f` is the precision or the recall of a matrix, `weightKey` says whether there are class
weights. -/
def value (part : ℕ → List Fl → List ℕ) (f : Bcm.Matrix → Fl) (thresholds : Option (List Fl)) (topK : Option ℕ) (weightKey : Bool)
    (args : Inputs.Args) (s : Sched Item) : Except Err (Bcm.Value Fl) :=
  let ts := match thresholds, topK with
    | some ts, _ => ts
    | none, some _ => [.ninf]
    | none, none => [.fin (1 / 2)]
  (matrices part { args with exampleWeighted := if weightKey then true else args.exampleWeighted } ts s).map (Bcm.metricValue f)

end SetMatch
end TFMA
