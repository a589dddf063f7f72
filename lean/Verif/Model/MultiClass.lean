import Verif.Beam.Combine
import Verif.Py.Float
import Mathlib.Algebra.Order.Floor.Defs
import Mathlib.Data.Rat.Floor

/-!
# Multi-class confusion matrices (multi_class_confusion_matrix_metrics.py)
-/

namespace TFMA
namespace MultiClass

open Beam

/-- What the extraction of label, predictions and weight yields for one element (with flatten=False).  A label without a
dimension is `none`; labels and predictions with several dimensions are not modelled.
(multi_class_confusion_matrix_metrics.py 288–306) -/
structure Example where
  label : Option (List ℚ)
  preds : List ℚ
  weight : ℚ
  deriving DecidableEq, Repr

/-- multi_class_confusion_matrix_metrics.py 203–205 `MatrixEntryKey(actual_class_id, predicted_class_id)`. -/
abbrev EntryKey := ℤ × ℤ

/-- multi_class_confusion_matrix_metrics.py 208–215 `Matrices`: threshold to entries. -/
abbrev Acc := Dict ℚ (Dict EntryKey ℚ)

/-- `np.argmax` of a non-empty list: the first index of the largest value.
(multi_class_confusion_matrix_metrics.py 312, 315) -/
def argmaxFrom : ℕ → ℚ → ℕ → List ℚ → ℕ
  | best, _, _, [] => best
  | best, m, i, x :: xs => if m < x then argmaxFrom i x (i + 1) xs else argmaxFrom best m (i + 1) xs

/-- multi_class_confusion_matrix_metrics.py 312, 315: `np.argmax`. -/
def argmax : List ℚ → ℕ
  | [] => 0
  | x :: xs => argmaxFrom 0 x 1 xs

/-- `int(x)`: truncation towards zero. (multi_class_confusion_matrix_metrics.py 314) -/
def truncate (x : ℚ) : ℤ := if 0 ≤ x then ⌊x⌋ else -⌊-x⌋

/-- `predictions[i]` where a negative index counts from the end. (multi_class_confusion_matrix_metrics.py 320) -/
def pyGet (l : List ℚ) (i : ℤ) : Except Err ℚ :=
  let j := if i < 0 then i + l.length else i
  if j < 0 then .error .indexError
  else match l[j.toNat]? with
    | some x => .ok x
    | none => .error .indexError

/-- Line 132 `NO_PREDICTED_CLASS_ID`. -/
def noClass : ℤ := -1

/-- Lines 303–316: actual class and top predicted class, or an error. -/
def classes (e : Example) : Except Err (ℤ × ℤ) :=
  match e.label with
  | none => .error .valueError
  | some l =>
    if e.preds.length ≤ 1 then .error .valueError
    else match l with
      | [] => .error .typeError
      | [x] => .ok (truncate x, argmax e.preds)
      | l => .ok (argmax l, argmax e.preds)

/-- `d[threshold][key] += w` with the entries created when missing (lines 318–319, 323–326). -/
def bump (a : Acc) (t : ℚ) (k : EntryKey) (w : ℚ) : Acc :=
  let row := (Dict.get? a t).getD []
  Dict.set a t (Dict.set row k (match Dict.get? row k with | some v => v + w | none => w))

/-- The loop over the thresholds, 317–326.  `predicted_class_id` is overwritten inside the loop, so it is part of the
state. -/
def thresholdLoop (preds : List ℚ) (actual : ℤ) (w : ℚ) : ℤ → List ℚ → Acc → Except Err Acc
  | _, [], a => .ok a
  | pid, t :: ts, a => do
    let p ← pyGet preds pid
    let pid' := if p ≤ t then noClass else pid
    thresholdLoop preds actual w pid' ts (bump a t (actual, pid') w)

/-- multi_class_confusion_matrix_metrics.py 288–327 `add_input`. -/
def addExample (ts : List ℚ) (a : Acc) (e : Example) : Except Err Acc := do
  let c ← classes e
  thresholdLoop e.preds c.1 e.weight c.2 ts a

/-- Inner loops of merge_accumulators, 333–340. -/
def mergeRow (row : Dict EntryKey ℚ) (m : Dict EntryKey ℚ) : Dict EntryKey ℚ :=
  m.foldl (fun r kv => Dict.set r kv.1 (match Dict.get? r kv.1 with | some v => v + kv.2 | none => kv.2)) row

/-- multi_class_confusion_matrix_metrics.py 332–340. -/
def mergeTwo (r acc : Acc) : Acc :=
  acc.foldl (fun r tm => Dict.set r tm.1 (mergeRow ((Dict.get? r tm.1).getD []) tm.2)) r

/-- multi_class_confusion_matrix_metrics.py 268–346 `_MultiClassConfusionMatrixCombiner`; line 282: an empty threshold
list is replaced by `[0.0]`. An element is the outcome of the extraction. -/
def combiner (thresholds : List ℚ) : CombineFn (Except Err Example) Acc where
  create := []
  addInput a x := x.bind (addExample (if thresholds = [] then [0] else thresholds) a)
  merge := mergeWith mergeTwo

/-- The entry of a result for a threshold and a pair of classes. (multi_class_confusion_matrix_metrics.py 208–215) -/
def entry (a : Acc) (t : ℚ) (k : EntryKey) : Option ℚ := (Dict.get? a t).bind fun row => Dict.get? row k

end MultiClass
end TFMA
