import Verif.Model.Combiners
import Verif.Model.Evaluate

/-!
# ROUGE, and the keys of the text metrics

metrics/rouge.py (line numbers without a file), metrics/bleu.py 416–447 and metrics/metric_util.py 1176–1232.

Texts are any type.  The scorer (rouge_score's `score_multi`, which scores a prediction against all its targets) is a function of the
targets and the prediction.  Numbers are rationals.
-/

namespace TFMA
namespace Rouge

open Beam MetricKeys Evaluate

/-- rouge_score `scoring.Score`. -/
structure Score where
  precision : ℚ
  recall : ℚ
  fmeasure : ℚ
  deriving DecidableEq, Repr

/-- 28–34 `_Accumulator`. -/
structure Acc where
  weightedCount : ℚ
  totalPrecision : ℚ
  totalRecall : ℚ
  totalFmeasure : ℚ
  deriving DecidableEq, Repr

/-- What `to_label_prediction_example_weight` gives for one example (96–106): labels, predictions, weights; or its exception. -/
abbrev Elem (S : Type) := Except Err (List S × List S × List ℚ)

/-- 91–116 `add_input`: `example_weights[0]`, `predictions[0]`. -/
def addInput {S : Type} (scorer : List S → S → Score) (a : Acc) (x : Elem S) : Except Err Acc :=
  match x with
  | .error e => .error e
  | .ok (labels, predictions, weights) =>
    match weights with
    | [] => .error .indexError
    | w :: _ =>
      match predictions with
      | [] => .error .indexError
      | p :: _ =>
        let s := scorer labels p
        .ok ⟨a.weightedCount + w, a.totalPrecision + s.precision * w, a.totalRecall + s.recall * w,
          a.totalFmeasure + s.fmeasure * w⟩

/-- 118–128: the sum of two accumulators. -/
def plus (a b : Acc) : Acc :=
  ⟨a.weightedCount + b.weightedCount, a.totalPrecision + b.totalPrecision, a.totalRecall + b.totalRecall,
    a.totalFmeasure + b.totalFmeasure⟩

/-- 36–150 `RougeCombiner`. -/
def combiner {S : Type} (scorer : List S → S → Score) : CombineFn (Elem S) Acc where
  create := ⟨0, 0, 0, 0⟩
  addInput := addInput scorer
  merge := mergeWith plus

/-- 130–150 `extract_output`: `none` for a score of NaNs. -/
def extract (a : Acc) : Option Score :=
  if a.weightedCount = 0 then none
  else some ⟨a.totalPrecision / a.weightedCount, a.totalRecall / a.weightedCount, a.totalFmeasure / a.weightedCount⟩

/-! ### Keys -/

/-- 153–179 `_rouge` and bleu.py 416–447 `_bleu`: one computation whose key has the name only; the combiner (named `className`) works
for one model and one output. -/
def textMetric (className name : String) (model output : String) : List (Computation (String × String)) :=
  [⟨.metric, className, [{ name := name }], [], (model, output)⟩]

/-- metric_util.py 1176–1232 `merge_per_key_computations`: for every model, output and sub key. -/
def computations (className name : String) (models outputs : List String) (subKeys : List (Option SubKey)) :
    List (Computation (String × String)) :=
  models.flatMap fun m => outputs.flatMap fun o => subKeys.flatMap fun _ => textMetric className name m o

end Rouge
end TFMA
