import Verif.Beam.Combine
import Verif.Py.Tree
import Verif.Py.Float
import Verif.Model.Keys
import Mathlib.Data.NNRat.Defs
import Mathlib.Order.WithBot
import Mathlib.Algebra.Order.Ring.Rat

/-!
# Built-in metric combiners

An element of a combiner that calls `metric_util.to_label_prediction_example_weight` is modelled by what that
generator yields for it (an exception or a list of examples), so that all statements hold for every way of
extracting labels, predictions and weights.  Floats are exact rationals; NaN results are `Fl.nan`.
-/

namespace TFMA
namespace Combiners

open Beam

/-- One `(label, prediction, example_weight)` after conversion with `float(..)`. (metric_util.py 431–794) -/
structure Triple where
  label : ℚ
  pred : ℚ
  weight : ℚ
  deriving DecidableEq, Repr

/-- What to_label_prediction_example_weight yields for one element. (metric_util.py 431–794) -/
abbrev Flat := Except Err (List Triple)

/-! ### stats.py: mean of a feature -/

/-- stats.py 30–33 `_Accumulator`. -/
structure MeanAcc where
  count : ℚ
  total : ℚ
  deriving DecidableEq, Repr

/-- What `util.get_by_keys` returns for the feature and the example weight (None if the metric has no example
weight path), stats.py 58, 67. -/
structure MeanElem where
  features : Except Err (List ℚ)
  weights : Option (Except Err (List ℚ))

/-- stats.py 52–79 `_MeanCombiner.add_input`. -/
def meanAdd (a : MeanAcc) (x : MeanElem) : Except Err MeanAcc := do
  match ← x.features with
  | [f] =>
    let w ← match x.weights with
      | none => pure 1
      | some r => match ← r with
        | [w] => pure w
        | _ => throw .assertionError
    return { count := a.count + w, total := a.total + w * f }
  | _ => throw .assertionError

/-- stats.py 36–94 `_MeanCombiner` (merge_accumulators 81–87). -/
def meanCombiner : CombineFn MeanElem MeanAcc where
  create := ⟨0, 0⟩
  addInput := meanAdd
  merge := mergeWith fun r a => ⟨r.count + a.count, r.total + a.total⟩

/-- stats.py 89–94 `extract_output`. -/
def meanExtract (a : MeanAcc) : Fl := if a.count = 0 then .nan else .fin (a.total / a.count)

/-! ### example_count.py -/

/-- `util.get_by_keys(d, [k], default or optional)` on a dictionary: exact match, else all entries `k/...` with
the prefix removed; an empty dictionary counts as not found (utils/util.py 518–558). -/
def lookup1 (f : Forest (List ℚ)) (k : String) : Option (Tree (List ℚ)) :=
  match f.find? k with
  | some (.node .nil) => none
  | some t => some t
  | none =>
    let rec pm : Forest (List ℚ) → Forest (List ℚ) → Forest (List ℚ)
      | acc, .nil => acc
      | acc, .cons key t rest => match Keys.stripPrefix? k key with
        | some k' => pm (acc.set k' t) rest
        | none => pm acc rest
    match pm .nil f with
    | .nil => none
    | g => some (.node g)

/-- Selection of the example weight, example_count.py 127–146: the weights are an array (its elements) or a
nested dictionary of arrays. -/
def exampleWeight (weighted : Bool) (modelName outputName : String) (w : Option (Tree (List ℚ))) :
    Except Err (List ℚ) :=
  let w0 : Tree (List ℚ) := match w with
    | some t => if weighted then t else .leaf [1]
    | none => .leaf [1]
  let w1 : Tree (List ℚ) := match w0 with
    | .node f => if modelName ≠ "" then (match lookup1 f modelName with | some t => t | none => w0) else w0
    | t => t
  let w2 : Tree (List ℚ) := match w1 with
    | .node f => if outputName ≠ "" then (match lookup1 f outputName with | some t => t | none => .leaf [1]) else w1
    | t => t
  match w2 with
  | .leaf a => .ok a
  | .node _ => .error .valueError

/-- example_count.py 106–155 `_ExampleCountCombiner` (`merge_accumulators` starts from 0.0, also for an empty
collection). -/
def exampleCountCombiner (weighted : Bool) (modelName outputName : String) :
    CombineFn (Option (Tree (List ℚ))) ℚ where
  create := 0
  addInput a x := do return a + (← exampleWeight weighted modelName outputName x).sum
  merge l := .ok (l.foldl (· + ·) 0)

/-! ### calibration.py -/

/-- An example as yielded with allow_none=True: arrays may be missing or empty. (metric_util.py 431–794) -/
structure OptExample where
  label : Option (List ℚ)
  pred : Option (List ℚ)
  weight : ℚ

/-- calibration.py 280–294 `_WeightedLabelsPredictionsExamples`. -/
structure LPE where
  labels : ℚ
  predictions : ℚ
  examples : ℚ
  deriving DecidableEq, Repr

/-- calibration.py 339–343 and 346–350: the amount added for an array.  With top_k the loop overwrites its
variable, so only the last of the k entries is used; top_k = 0 leaves the variable unbound. -/
def weightedValue (topK : Option ℕ) (a : List ℚ) (w : ℚ) : Except Err ℚ :=
  match topK with
  | some 0 => .error .runtimeError
  | some (k + 1) => match a[k]? with
    | some x => .ok (x * w)
    | none => .error .indexError
  | none => match a with
    | [x] => .ok (x * w)
    | _ => .error .typeError

/-- Body of the loop of calibration.py 321–351.  `len(label)` with label None raises TypeError (line 345). -/
def lpeStep (topK : Option ℕ) (a : LPE) (t : OptExample) : Except Err LPE := do
  let a := { a with examples := a.examples + t.weight }
  let a ← match t.label with
    | some (l :: ls) => do pure { a with labels := a.labels + (← weightedValue topK (l :: ls) t.weight) }
    | _ => pure a
  match t.pred with
  | none => pure a
  | some p => match t.label with
    | none => throw .typeError
    | some [] => pure a
    | some (_ :: _) => do pure { a with predictions := a.predictions + (← weightedValue topK p t.weight) }

/-- calibration.py 296–363 `_WeightedLabelsPredictionsExamplesCombiner`. -/
def lpeCombiner (topK : Option ℕ) : CombineFn (Except Err (List OptExample)) LPE where
  create := ⟨0, 0, 0⟩
  addInput a x := x.bind (loop (lpeStep topK) a)
  merge := mergeWith fun r a =>
    ⟨r.labels + a.labels, r.predictions + a.predictions, r.examples + a.examples⟩

/-- calibration.py 77–86 and 144–153 mean_label/mean_prediction result (`num` is the total of labels resp. predictions). -/
def meanOverExamples (num : LPE → ℚ) (a : LPE) : Fl :=
  if isClose a.examples 0 then .nan else .fin (num a / a.examples)

/-- calibration.py 215–225 calibration result. -/
def calibration (a : LPE) : Fl := if isClose a.labels 0 then .nan else .fin (a.predictions / a.labels)

/-! ### squared_pearson_correlation.py -/

/-- squared_pearson_correlation.py 74–92 `_SquaredPearsonCorrelationAccumulator`. -/
structure PearsonAcc where
  labels : ℚ
  predictions : ℚ
  sqLabels : ℚ
  sqPredictions : ℚ
  labelsTimesPredictions : ℚ
  examples : ℚ
  deriving DecidableEq, Repr

/-- squared_pearson_correlation.py 133–145. -/
def pearsonStep (a : PearsonAcc) (t : Triple) : PearsonAcc where
  labels := a.labels + t.weight * t.label
  predictions := a.predictions + t.weight * t.pred
  sqLabels := a.sqLabels + t.weight * t.label ^ 2
  sqPredictions := a.sqPredictions + t.weight * t.pred ^ 2
  labelsTimesPredictions := a.labelsTimesPredictions + t.weight * t.label * t.pred
  examples := a.examples + t.weight

/-- squared_pearson_correlation.py 154–165. -/
def pearsonMerge (r a : PearsonAcc) : PearsonAcc where
  labels := r.labels + a.labels
  predictions := r.predictions + a.predictions
  sqLabels := r.sqLabels + a.sqLabels
  sqPredictions := r.sqPredictions + a.sqPredictions
  labelsTimesPredictions := r.labelsTimesPredictions + a.labelsTimesPredictions
  examples := r.examples + a.examples

/-- squared_pearson_correlation.py 95–166 `_SquaredPearsonCorrelationCombiner`. -/
def pearsonCombiner : CombineFn Flat PearsonAcc where
  create := ⟨0, 0, 0, 0, 0, 0⟩
  addInput a x := x.bind (loop (fun a t => .ok (pearsonStep a t)) a)
  merge := mergeWith pearsonMerge

/-- squared_pearson_correlation.py 168–216 `extract_output`. -/
def pearsonExtract (a : PearsonAcc) : Fl :=
  if 0 < a.examples then
    let numerator := (a.labelsTimesPredictions - a.labels * a.predictions / a.examples) ^ 2
    let denominatorY := a.sqPredictions - a.predictions ^ 2 / a.examples
    let denominatorX := a.sqLabels - a.labels ^ 2 / a.examples
    let denominator := denominatorX * denominatorY
    if 0 < denominator then .fin (numerator / denominator) else .nan
  else .nan

/-! ### tjur_discrimination.py -/

/-- tjur_discrimination.py 238–252 `_TjurDiscriminationAccumulator`. -/
structure TjurAcc where
  negPredictions : ℚ
  negLabels : ℚ
  posPredictions : ℚ
  posLabels : ℚ
  deriving DecidableEq, Repr

/-- tjur_discrimination.py 293–303. -/
def tjurStep (a : TjurAcc) (t : Triple) : TjurAcc where
  negLabels := a.negLabels + (1 - t.label) * t.weight
  posLabels := a.posLabels + t.label * t.weight
  negPredictions := a.negPredictions + (1 - t.label) * t.pred * t.weight
  posPredictions := a.posPredictions + t.label * t.pred * t.weight

/-- tjur_discrimination.py 255–330 `_TjurDiscriminationCombiner`. -/
def tjurCombiner : CombineFn Flat TjurAcc where
  create := ⟨0, 0, 0, 0⟩
  addInput a x := x.bind (loop (fun a t => .ok (tjurStep a t)) a)
  merge := mergeWith fun r a =>
    { negPredictions := r.negPredictions + a.negPredictions
      negLabels := r.negLabels + a.negLabels
      posPredictions := r.posPredictions + a.posPredictions
      posLabels := r.posLabels + a.posLabels }

/-- tjur_discrimination.py 95–111 coefficient of discrimination. -/
def tjurExtract (a : TjurAcc) : Fl :=
  if a.negLabels = 0 ∨ a.posLabels = 0 then .nan
  else .fin (a.posPredictions / a.posLabels - a.negPredictions / a.negLabels)

/-- tjur_discrimination.py 181–198 relative coefficient of discrimination. -/
def relTjurExtract (a : TjurAcc) : Fl :=
  if a.negLabels = 0 ∨ a.posLabels = 0 ∨ a.negPredictions = 0 then .nan
  else .fin ((a.posPredictions / a.posLabels) / (a.negPredictions / a.negLabels))

/-! ### min_label_position.py -/

/-- A query: labels in the order of `np.argsort(predictions)[::-1]` (None when there are no labels; each label
is summed, line 147) and the example weight. -/
structure MinLabelElem where
  sortedLabels : Option (List ℚ)
  weight : ℚ

/-- 1-indexed position of the first positive label (min_label_position.py 145–149). -/
def firstPositive : ℕ → List ℚ → Option ℕ
  | _, [] => none
  | i, l :: ls => if 0 < l then some (i + 1) else firstPositive (i + 1) ls

/-- min_label_position.py 97–104 `_MinLabelPositionAccumulator`. -/
structure MinLabelAcc where
  position : ℚ
  examples : ℚ
  deriving DecidableEq, Repr

/-- min_label_position.py 107–163 `_MinLabelPositionCombiner`; an element for which the generator raises is an
error. -/
def minLabelCombiner : CombineFn (Except Err MinLabelElem) MinLabelAcc where
  create := ⟨0, 0⟩
  addInput a x := x.bind fun x => .ok <| match x.sortedLabels with
    | none => a
    | some ls => match firstPositive 0 ls with
      | none => a
      | some p => ⟨a.position + p * x.weight, a.examples + x.weight⟩
  merge := mergeWith fun r a => ⟨r.position + a.position, r.examples + a.examples⟩

/-- min_label_position.py 165–172 `extract_output`. -/
def minLabelExtract (a : MinLabelAcc) : Fl :=
  if 0 < a.examples then .fin (a.position / a.examples) else .nan

/-! ### query_statistics.py -/

/-- query_statistics.py 127–136 `_QueryStatisticsAccumulator`.  `max_documents` starts at 0 and only grows, so it
is held as a non-negative number. -/
structure QueryAcc where
  queries : ℚ
  documents : ℚ
  minDocs : WithTop ℚ
  maxDocs : ℚ≥0

/-- query_statistics.py 179–184; an example is the weight together with `len(element.prediction)`. -/
def queryStep (a : QueryAcc) (t : ℕ × ℚ) : QueryAcc :=
  let n : ℚ := t.1 * t.2
  { queries := a.queries + t.2
    documents := a.documents + n
    minDocs := min a.minDocs (n : WithTop ℚ)
    maxDocs := max a.maxDocs n.toNNRat }

/-- query_statistics.py 139–207 `_QueryStatisticsCombiner`. -/
def queryCombiner : CombineFn (Except Err (List (ℕ × ℚ))) QueryAcc where
  create := ⟨0, 0, ⊤, 0⟩
  addInput a x := x.bind (loop (fun a t => .ok (queryStep a t)) a)
  merge := mergeWith fun r a =>
    { queries := r.queries + a.queries
      documents := r.documents + a.documents
      minDocs := min r.minDocs a.minDocs
      maxDocs := max r.maxDocs a.maxDocs }

/-! ### exact_match.py -/

/-- An example of exact match: lists of (JSON decoded) labels and predictions and the weight.
(exact_match.py 125–150) -/
structure MatchExample (β : Type) where
  label : List β
  pred : List β
  weight : ℚ

/-- exact_match.py 89–103 `_ExactMatchAccumulator`. -/
structure MatchAcc where
  scores : ℚ
  examples : ℚ
  deriving DecidableEq, Repr

/-- exact_match.py 151–152 `int(all([p == l for p, l in zip(prediction, label)]))`. -/
def matchScore {β : Type} [DecidableEq β] (label pred : List β) : ℚ :=
  if (pred.zip label).all (fun x => decide (x.1 = x.2)) then 1 else 0

/-- exact_match.py 106–165 `_ExactMatchCombiner`. -/
def matchCombiner {β : Type} [DecidableEq β] : CombineFn (Except Err (List (MatchExample β))) MatchAcc where
  create := ⟨0, 0⟩
  addInput a x := x.bind (loop (fun a t => .ok
    ⟨a.scores + matchScore t.label t.pred * t.weight, a.examples + t.weight⟩) a)
  merge := mergeWith fun r a => ⟨r.scores + a.scores, r.examples + a.examples⟩

/-- exact_match.py 167–174 `extract_output`: python float division. -/
def matchExtract (a : MatchAcc) : Except Err ℚ :=
  if a.examples = 0 then .error .zeroDivisionError else .ok (a.scores / a.examples)

end Combiners
end TFMA
