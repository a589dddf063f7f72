import Verif.Beam.Combine
import Mathlib.Data.Rat.Init
import Mathlib.Algebra.Order.Ring.Unbundled.Rat

/-!
# Fixed size samples

metrics/sample_metrics.py (line numbers without a file), utils/beam_util.py 23–67 and apache_beam's `TopCombineFn`.

Every element carries the random tag that is drawn for it (118), so that an execution is determined by its inputs.  Weights
(138–142) only change how a tag is computed from a random number.  A heap is modelled as the list of its elements in descending order
of their tags (heapq gives access to the smallest only, and its shape is not observable).
-/

namespace TFMA
namespace Sample

variable {V : Type}

/-- The place of an element in a heap, largest tag first. (heapq `heappush`) -/
def place (x : ℚ × V) : List (ℚ × V) → List (ℚ × V)
  | [] => [x]
  | y :: l => if y.1 < x.1 then x :: y :: l else y :: place x l

/-- apache_beam `TopCombineFn.add_input`: push while the heap is not full, `heappushpop` (which drops the smallest) afterwards.
(132–143 `add_input`) -/
def push (n : ℕ) (heap : List (ℚ × V)) (x : ℚ × V) : List (ℚ × V) :=
  if heap.length < n then place x heap else (place x heap).dropLast

/-- apache_beam `TopCombineFn.merge_accumulators`: the elements of the further heaps are pushed into the first one.
(beam_util.py 53–56) -/
def mergeHeaps (n : ℕ) (a b : List (ℚ × V)) : List (ℚ × V) := b.foldl (push n) a

/-- 105–148 `_FixedSizeSampleCombineFn`, which delegates to `TopCombineFn(n=size)`. -/
def combiner (n : ℕ) : Beam.CombineFn (ℚ × V) (List (ℚ × V)) where
  create := []
  addInput a x := .ok (push n a x)
  merge := Beam.mergeWith (mergeHeaps n)

/-- 145–148 `extract_output`: the elements in descending order without their tags. -/
def extract (heap : List (ℚ × V)) : List V := heap.map Prod.snd

end Sample
end TFMA
