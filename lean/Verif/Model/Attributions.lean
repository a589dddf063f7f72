import Verif.Beam.Combine
import Mathlib.Algebra.Order.Ring.Rat
import Mathlib.Algebra.Order.Group.Abs

/-!
# Total attributions

metrics/attributions.py 281–377.
-/

namespace TFMA
namespace Attributions

open Beam

/-- An element: the selected attribution scores of every feature (attributions.py 318–350; the sub key selection
is applied already) and the example weight.  Scores are one dimensional, a scalar being a vector of size 1. -/
structure Elem where
  scores : List (String × List ℚ)
  weight : ℚ

/-- attributions.py 281–377 accumulator: sum of the scores per feature. -/
abbrev Acc := Dict String (List ℚ)

/-- What is added for a score: its absolute value or the score itself. (attributions.py 298–311) -/
def addend (absolute : Bool) (v : ℚ) : ℚ := if absolute then |v| else v

/-- attributions.py 298–311 `_sum` (the two branches agree for one dimensional arrays). -/
def sumInto (absolute : Bool) (a b : List ℚ) : Except Err (List ℚ) :=
  if a.length ≠ b.length then .error .valueError
  else .ok (List.zipWith (fun x v => x + addend absolute v) a b)

/-- attributions.py 351–353, one entry of the loop of `add_input`. -/
def addStep (absolute : Bool) (a : Acc) (e : String × List ℚ) : Except Err Acc :=
  let old := match Dict.get? a e.1 with
    | some l => l
    | none => List.replicate e.2.length 0
  (sumInto absolute old e.2).map fun l => Dict.set a e.1 l

/-- attributions.py 362–366, one entry of the loop of `merge_accumulators`. -/
def mergeStep (absolute : Bool) (a : Acc) (e : String × List ℚ) : Except Err Acc :=
  match Dict.get? a e.1 with
  | some l => (sumInto absolute l e.2).map fun l => Dict.set a e.1 l
  | none => .ok (Dict.set a e.1 e.2)

/-- attributions.py 284–367 `_TotalAttributionsCombiner`; an element that is rejected before the loop is an
error. -/
def combiner (absolute : Bool) : CombineFn (Except Err Elem) Acc where
  create := []
  addInput a x := x.bind fun x =>
    loop (addStep absolute) a (x.scores.map fun e => (e.1, e.2.map (· * x.weight)))
  merge := mergeLoop fun r a => loop (mergeStep absolute) r a

end Attributions
end TFMA
