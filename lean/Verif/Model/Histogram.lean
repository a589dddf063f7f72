import Verif.Model.Combiners
import Mathlib.Algebra.Order.Floor.Defs
import Mathlib.Algebra.Order.Round
import Mathlib.Data.Rat.Floor

/-!
# Calibration histograms (calibration_histogram.py)
-/

namespace TFMA
namespace Histogram

open Beam

/-- One `(label, prediction, example_weight)`; a prediction outside the top k is -inf.
(calibration_histogram.py 182–189) -/
structure HExample where
  label : ℚ
  pred : Fl
  weight : ℚ
  deriving DecidableEq, Repr

/-- calibration_histogram.py 30–37 `Bucket`. -/
structure Bucket where
  id : ℕ
  labels : ℚ
  predictions : Fl
  examples : ℚ
  deriving DecidableEq, Repr

/-- Constructor arguments of the combiner that matter for bucketing (158–180). -/
structure Config where
  num : ℕ
  left : ℚ
  right : ℚ
  byPrediction : Bool

/-- calibration_histogram.py 182–189 `_bucket_index`.  `int` of a non-negative float is its floor; `int(nan)` raises
ValueError; python float division by zero raises ZeroDivisionError. -/
def bucketIndex (c : Config) (p : Fl) : Except Err ℕ :=
  if c.right - c.left = 0 then .error .zeroDivisionError
  else match Fl.add (Fl.mul (Fl.div (Fl.sub p (.fin c.left)) (.fin (c.right - c.left))) (.fin c.num)) (.fin 1) with
    | .nan => .error .valueError
    | .ninf => .ok 0
    | .pinf => .ok (c.num + 1)
    | .fin x => if x < 0 then .ok 0 else if (c.num : ℚ) + 1 ≤ x then .ok (c.num + 1) else .ok ⌊x⌋.toNat

/-- Accumulator: bucket id to bucket (152). -/
abbrev Acc := Dict ℕ Bucket

/-- Body of the loop of add_input (223–240). -/
def step (c : Config) (acc : Acc) (t : HExample) : Except Err Acc := do
  let wl := t.label * t.weight
  let wp := Fl.mul t.pred (.fin t.weight)
  let i ← bucketIndex c (if c.byPrediction then t.pred else .fin t.label)
  match Dict.get? acc i with
  | none => return Dict.set acc i ⟨i, wl, wp, t.weight⟩
  | some b =>
    let b' : Bucket :=
      { b with labels := b.labels + wl, predictions := Fl.add b.predictions wp, examples := b.examples + t.weight }
    return Dict.set acc i b'

/-- calibration_histogram.py 39–45 `Bucket.merge`. -/
def Bucket.merge (a b : Bucket) : Except Err Bucket :=
  if a.id ≠ b.id then .error .valueError
  else .ok { a with labels := a.labels + b.labels, predictions := Fl.add a.predictions b.predictions,
                    examples := a.examples + b.examples }

/-- One bucket of the inner loop of merge_accumulators (249–255). -/
def mergeBucket (r : Acc) (kb : ℕ × Bucket) : Except Err Acc :=
  match Dict.get? r kb.1 with
  | none => do return Dict.set r kb.1 (← Bucket.merge ⟨kb.1, 0, .fin 0, 0⟩ kb.2)
  | some b => do return Dict.set r kb.1 (← Bucket.merge b kb.2)

/-- calibration_histogram.py 155–263 `_CalibrationHistogramCombiner`. -/
def combiner (c : Config) : CombineFn (Except Err (List HExample)) Acc where
  create := []
  addInput a x := x.bind (loop (step c) a)
  merge := mergeLoop fun r acc => loop mergeBucket r acc

/-- calibration_histogram.py 258–263 `extract_output`. -/
def extract (a : Acc) : List Bucket := (a.map Prod.snd).mergeSort (fun x y => decide (x.id ≤ y.id))

/-! ### rebin -/

/-- Left end of a source bucket (299–304). -/
def bucketStart (num : ℕ) (left right : ℚ) (i : ℕ) : Fl :=
  if i = 0 then .ninf
  else if num + 1 ≤ i then .pinf
  else .fin (((i : ℚ) - 1) / num * (right - left) + left)

/-- The inner `while` (318–320): `rest` is `thresholds[offset + 1:]`; emits empty buckets while the next threshold
is not above pred. Returns the emitted buckets, the new offset and the remaining thresholds. -/
def skip (pred : Fl) : ℕ → List Fl → List Bucket × ℕ × List Fl
  | offset, [] => ([], offset, [])
  | offset, t :: rest =>
    if Fl.le t pred then
      let r := skip pred (offset + 1) rest
      (⟨offset, 0, .fin 0, 0⟩ :: r.1, r.2)
    else ([], offset, t :: rest)

/-- The loop of rebin (298–323) and its tail (324–336); `tot` holds the running totals with the current offset as
id, `rest` is `thresholds[offset + 1:]`. -/
def rebinLoop (num : ℕ) (left right : ℚ) : Bucket → List Fl → List Bucket → List Bucket
  | tot, rest, [] => tot :: (rest.zipIdx (tot.id + 1)).map fun x => ⟨x.2, 0, .fin 0, 0⟩
  | tot, rest, b :: bs =>
    let pred := bucketStart num left right b.id
    match rest with
    | [] => rebinLoop num left right
        { tot with labels := tot.labels + b.labels, predictions := Fl.add tot.predictions b.predictions,
                   examples := tot.examples + b.examples } [] bs
    | t :: rest' =>
      if Fl.le t pred then
        let r := skip pred (tot.id + 1) rest'
        tot :: (r.1 ++ rebinLoop num left right
          ⟨r.2.1, 0 + b.labels, Fl.add (.fin 0) b.predictions, 0 + b.examples⟩ r.2.2 bs)
      else rebinLoop num left right
        { tot with labels := tot.labels + b.labels, predictions := Fl.add tot.predictions b.predictions,
                   examples := tot.examples + b.examples } (t :: rest') bs

/-- calibration_histogram.py 266–336 `rebin`.  The lists `thresholds[offset + 1:]` replace the index `offset`;
with an empty threshold list python returns one bucket holding everything, as here. -/
def rebin (thresholds : List Fl) (num : ℕ) (left right : ℚ) (h : List Bucket) : List Bucket :=
  rebinLoop num left right ⟨0, 0, .fin 0, 0⟩ (thresholds.drop 1) h

end Histogram
end TFMA
