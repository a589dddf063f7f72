import Verif.Beam.Combine
import Mathlib.Algebra.Order.Field.Basic
import Mathlib.Data.List.Sort

/-!
# NDCG

metrics/ndcg.py.  Values live in any linearly ordered field `K`, so that the discount can be the real logarithm.
-/

namespace TFMA
namespace Ndcg

open Beam

variable {K : Type} [Field K] [LinearOrder K]

/-- What `to_label_prediction_example_weight(flatten=False)` and the gain feature supply for one query
(ndcg.py 185–196).  Predictions and gains are one dimensional. -/
structure Query (K : Type) where
  predictions : List K
  gains : List K
  weight : K

/-- ndcg.py 181–207 `_to_gains_example_weight`.  `argsort` is `np.argsort`, whose treatment of equal predictions
is unspecified, so it is a parameter; an index that is out of range raises IndexError.  `gains.max()` of an empty
array raises ValueError. -/
def toGains (argsort : List K → List ℕ) (q : Query K) : Except Err (List K × K) :=
  if q.gains.length ≠ q.predictions.length then .error .valueError
  else if q.gains.isEmpty then .error .valueError
  else
    let w := if q.gains.all (fun g => decide (g ≤ 0)) then 0 else q.weight
    match (argsort q.predictions).reverse.mapM (fun i => q.gains[i]?) with
    | some g => .ok (g, w)
    | none => .error .indexError

/-- ndcg.py 209–222 `_calculate_dcg_at_k`: `sorted_values[:k] / log2([2, .., k + 1])`, summed.  `log2` is a
parameter; `k` is a natural number. -/
def dcgAtK (log2 : ℕ → K) (k : ℕ) (sortedValues : List K) : K :=
  (List.zipWith (· / ·) (sortedValues.take k) ((List.range k).map fun i => log2 (i + 2))).sum

/-- ndcg.py 224–248 `_calculate_ndcg`.  `sorted` is a stable sort, modelled by insertion sort (all stable sorts
agree). -/
def calculateNdcg (log2 : ℕ → K) (values : List (ℕ × K)) (k : ℕ) : K :=
  let maxRank := min k values.length
  let ranked := (values.insertionSort fun x y => x.1 ≤ y.1).map Prod.snd
  let optimal := (values.insertionSort fun x y => y.2 ≤ x.2).map Prod.snd
  let dcg := dcgAtK log2 maxRank ranked
  let optimalDcg := dcgAtK log2 maxRank optimal
  if 0 < optimalDcg then dcg / optimalDcg else 0

/-- ndcg.py 127–134 `_NDCGAccumulator`. -/
structure Acc (K : Type) where
  ndcg : List K
  examples : K

/-- `[(pos + 1, gain) for pos, gain in enumerate(gains)]`, ndcg.py 259. -/
def rankGain (gains : List K) : List (ℕ × K) := gains.zipIdx.map fun x => (x.2 + 1, x.1)

/-- ndcg.py 260–265: the loop over the keys; a key is its top_k. -/
def keyLoop (log2 : ℕ → K) (rg : List (ℕ × K)) (w : K) : List (Option ℕ) → List K → Except Err (List K)
  | [], as => .ok as
  | none :: _, _ => .error .valueError
  | some _ :: _, [] => .error .indexError
  | some k :: ks, a :: as => do
    let rest ← keyLoop log2 rg w ks as
    return (a + calculateNdcg log2 rg k * w) :: rest

/-- ndcg.py 253–267 `add_input`; an element for which the generator raises is an error. -/
def addInput (argsort : List K → List ℕ) (log2 : ℕ → K) (keys : List (Option ℕ)) (a : Acc K)
    (x : Except Err (Query K)) : Except Err (Acc K) := do
  let (gains, w) ← toGains argsort (← x)
  let ndcg ← keyLoop log2 (rankGain gains) w keys a.ndcg
  return ⟨ndcg, a.examples + w⟩

/-- ndcg.py 250–277 `_NDCGCombiner`. -/
def combiner (argsort : List K → List ℕ) (log2 : ℕ → K) (keys : List (Option ℕ)) :
    CombineFn (Except Err (Query K)) (Acc K) where
  create := ⟨List.replicate keys.length 0, 0⟩
  addInput := addInput argsort log2 keys
  merge := mergeWith fun r a => ⟨List.zipWith (· + ·) r.ndcg a.ndcg, r.examples + a.examples⟩

/-- ndcg.py 279–288 `extract_output`: the value of the `i`-th key; `none` is NaN. -/
def extract (a : Acc K) (i : ℕ) : Option K :=
  if 0 < a.examples then a.ndcg[i]?.map (· / a.examples) else none

end Ndcg
end TFMA
