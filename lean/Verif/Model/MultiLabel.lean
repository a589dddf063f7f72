import Verif.Beam.Combine
import Verif.Py.Float
import Verif.Model.Inputs
import Mathlib.Data.List.Sort

/-!
# Multi-label confusion matrices (multi_label_confusion_matrix_plot.py)

The extraction of label, predictions and weight (lines 192–202) is the subject of Model/Inputs.lean; an element here is
its outcome.  Predictions with two or more dimensions are not modelled.
-/

namespace TFMA
namespace MultiLabel

open Beam Inputs

/-- What the extraction yields for one element (flatten=False).  Predictions without a dimension are `none`.
(multi_label_confusion_matrix_plot.py 192–202) -/
structure Example where
  label : Arr ℚ
  preds : Option (List Fl)
  weight : ℚ
  deriving DecidableEq, Repr

/-- multi_label_confusion_matrix_plot.py 150–164 `_ConfusionMatrix`. -/
structure Cell where
  fn : ℚ
  tn : ℚ
  fp : ℚ
  tp : ℚ
  deriving DecidableEq, Repr

/-- The four `+=`. (multi_label_confusion_matrix_plot.py 237–240, 259–262) -/
def Cell.add (a b : Cell) : Cell := ⟨a.fn + b.fn, a.tn + b.tn, a.fp + b.fp, a.tp + b.tp⟩

/-- multi_label_confusion_matrix_plot.py 145–147 `_MatrixEntryKey(actual_class_id, predicted_class_id)`. -/
abbrev EntryKey := ℕ × ℕ

/-- multi_label_confusion_matrix_plot.py 167–168 `_Matrices`. -/
abbrev Acc := Dict ℚ (Dict EntryKey Cell)

/-- multi_label_confusion_matrix_plot.py 25 `_EPSILON`. -/
def epsilon : ℚ := 1 / 10000000

/-- multi_label_confusion_matrix_plot.py 112–123: the thresholds handed to the combiner.  `range` of a negative number
is empty. -/
def chosenThresholds (thresholds : Option (List ℚ)) (numThresholds : Option ℤ) : Except Err (List ℚ) :=
  match numThresholds, thresholds with
  | some _, some _ => .error .valueError
  | none, none => .ok [1 / 2]
  | none, some ts => .ok ts
  | some n, none =>
    .ok (-epsilon :: (List.range (n - 2).toNat).map (fun (i : ℕ) => ((i : ℚ) + 1) / ((n : ℚ) - 1)) ++ [1 + epsilon])

/-- multi_label_confusion_matrix_plot.py 203–219: the dense labels and the predictions, or an error. -/
def dense (e : Example) : Except Err (List ℚ × List Fl) :=
  if e.label.shape = [] then .error .valueError
  else match e.preds with
    | none => .error .valueError
    | some [_] => .error .valueError
    | some p =>
      if e.label.shape.length ≠ 1 ∨ e.label.shape.getLast? ≠ some p.length then do
        let l ← oneHot e.label [p.length]
        return (l.data, p)
      else .ok (e.label.data, p)

/-- `p > t`. (multi_label_confusion_matrix_plot.py 230, 235) -/
def above (p : Fl) (t : ℚ) : Bool := Fl.le (.fin t) p && !Fl.le p (.fin t)

/-- `(condition) * example_weight`. (multi_label_confusion_matrix_plot.py 228–235) -/
def times (b : Bool) (w : ℚ) : ℚ := if b then w else 0

/-- multi_label_confusion_matrix_plot.py 228–235: what is counted for a class that is a label or is not. -/
def cellFor (isLabel : Bool) (p : Fl) (t w : ℚ) : Cell :=
  ⟨times (isLabel && Fl.le p (.fin t)) w, times (!isLabel && Fl.le p (.fin t)) w, times (!isLabel && above p t) w,
    times (isLabel && above p t) w⟩

/-- multi_label_confusion_matrix_plot.py 236–247: add to the entry of the row, or create it. -/
def bump (row : Dict EntryKey Cell) (k : EntryKey) (c : Cell) : Dict EntryKey Cell :=
  Dict.set row k (match Dict.get? row k with | some v => Cell.add v c | none => c)

/-- multi_label_confusion_matrix_plot.py 226–247, `for class_id, prediction in enumerate(predictions)`.  The labels have as many values as the
predictions, so `labels[class_id]` is in range. -/
def classLoop (labels : List ℚ) (t w : ℚ) (actual : ℕ) : ℕ → List Fl → Dict EntryKey Cell → Dict EntryKey Cell
  | _, [], row => row
  | c, p :: ps, row =>
    classLoop labels t w actual (c + 1) ps
      (bump row (actual, c) (cellFor (decide (labels[c]?.getD 0 ≠ 0)) p t w))

/-- multi_label_confusion_matrix_plot.py 223–247, `for actual_class_id, label in enumerate(labels)`. -/
def actualLoop (labels : List ℚ) (preds : List Fl) (t w : ℚ) : ℕ → List ℚ → Dict EntryKey Cell → Dict EntryKey Cell
  | _, [], row => row
  | a, l :: ls, row =>
    actualLoop labels preds t w (a + 1) ls (if l = 0 then row else classLoop labels t w a 0 preds row)

/-- multi_label_confusion_matrix_plot.py 220–247, one round of `for threshold in self._thresholds`. -/
def addAt (labels : List ℚ) (preds : List Fl) (w : ℚ) (a : Acc) (t : ℚ) : Acc :=
  Dict.set a t (actualLoop labels preds t w 0 labels ((Dict.get? a t).getD []))

/-- multi_label_confusion_matrix_plot.py 189–248 `add_input`. -/
def addExample (ts : List ℚ) (a : Acc) (e : Example) : Except Err Acc := do
  let d ← dense e
  return ts.foldl (addAt d.1 d.2 e.weight) a

/-- multi_label_confusion_matrix_plot.py 257–264: one row of an accumulator into the row of the result. -/
def mergeRow (row m : Dict EntryKey Cell) : Dict EntryKey Cell := m.foldl (fun r kv => bump r kv.1 kv.2) row

/-- multi_label_confusion_matrix_plot.py 253–264. -/
def mergeTwo (r acc : Acc) : Acc :=
  acc.foldl (fun r tm => Dict.set r tm.1 (mergeRow ((Dict.get? r tm.1).getD []) tm.2)) r

/-- multi_label_confusion_matrix_plot.py 171–292 `_MultiLabelConfusionMatrixPlotCombiner`; line 184: an empty list of
thresholds is replaced by `[0.5]`. -/
def combiner (thresholds : List ℚ) : CombineFn (Except Err Example) Acc where
  create := []
  addInput a x := x.bind (addExample (if thresholds = [] then [1 / 2] else thresholds) a)
  merge := mergeWith mergeTwo

/-- multi_label_confusion_matrix_plot.py 275–281: the threshold written to the proto. -/
def shownThreshold (t : ℚ) : ℚ := if t = -epsilon then 0 else if t = 1 + epsilon then 1 else t

/-- Order of the named tuples. (multi_label_confusion_matrix_plot.py 283) -/
def keyLe (a b : EntryKey) : Bool := decide (a.1 < b.1 ∨ (a.1 = b.1 ∧ a.2 ≤ b.2))

/-- multi_label_confusion_matrix_plot.py 267–292 `extract_output`: the matrices of the proto. -/
def extract (acc : Acc) : List (ℚ × List (EntryKey × Cell)) :=
  ((acc.map Prod.fst).insertionSort (· ≤ ·)).map fun t =>
    (shownThreshold t, ((Dict.get? acc t).getD []).insertionSort fun x y => keyLe x.1 y.1)

end MultiLabel
end TFMA
