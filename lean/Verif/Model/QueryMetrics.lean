import Verif.Model.Ndcg
import Verif.Py.Basic

/-!
# Combiners for queries

evaluators/query_metrics: `NdcgMetricCombineFn`, `MinLabelPositionCombineFn` and `QueryStatisticsCombineFn`, which are given all
documents of a query in the order of the ranking.  Numbers live in a linearly ordered field `K`, so that the discount can be the real
logarithm; NaN is not covered.
-/

namespace TFMA
namespace QueryMetrics

open Beam

variable {K : Type} [Field K] [LinearOrder K]

/-- A feature value: the number of dimensions and the elements. -/
structure Feature (K : Type) where
  rank : ℕ
  values : List K

/-- A document: its features and its labels, each given by its elements. (evaluators/query_metrics/query_types.py 20–26) -/
structure Doc (K : Type) where
  features : Dict String (Feature K)
  labels : Dict String (List K)

/-- evaluators/query_metrics/ndcg.py 40–61, evaluators/query_metrics/min_label_position.py 38–59 `_get_feature_value` followed by
`float`: `feature[0][0]` of an array with fewer than two dimensions raises IndexError. -/
def featureValue (d : Doc K) (key : String) : Except Err K := match d.features.get? key with
  | none => .error .valueError
  | some f => match f.values with
    | [v] => if f.rank < 2 then .error .indexError else .ok v
    | _ => .error .valueError

/-- The value of a feature for each document. (evaluators/query_metrics/ndcg.py 139–142, 154–157) -/
def featureValues (key : String) : List (Doc K) → Except Err (List K)
  | [] => .ok []
  | d :: ds => match featureValue d key with
    | .error e => .error e
    | .ok v => match featureValues key ds with
      | .error e => .error e
      | .ok vs => .ok (v :: vs)

/-- evaluators/query_metrics/ndcg.py 137–150, evaluators/query_metrics/min_label_position.py 101–114: the weight of a query;
`min(weights) != max(weights)` holds if and only if two of them differ. -/
def queryWeight (weightKey : String) (docs : List (Doc K)) : Except Err K :=
  if weightKey = "" then .ok 1
  else match featureValues weightKey docs with
    | .error e => .error e
    | .ok [] => .ok 1
    | .ok (w :: ws) => if ws.foldl min w ≠ ws.foldl max w then .error .valueError else .ok w

/-! ### nDCG -/

/-- evaluators/query_metrics/ndcg.py 83–122: `_calculate_ndcg` and `_calculate_dcg_at_k` are the functions of metrics/ndcg.py
(`Ndcg.calculateNdcg`) for positions that are not negative.  For a negative position the discounts are empty, and dividing all but the
last gains by them fails if two or more of them are left (numpy broadcasts a single one). -/
def ndcgAt (log2 : ℕ → K) (gains : List K) (at_ : ℤ) : Except Err K :=
  if at_ < 0 then if 2 ≤ (gains.length : ℤ) + at_ then .error .valueError else .ok 0
  else .ok (Ndcg.calculateNdcg log2 (Ndcg.rankGain gains) at_.toNat)

/-- evaluators/query_metrics/ndcg.py 35–37 `_State`: the dictionary by position is kept as a list of values, one for each of
`at_vals`; equal positions have equal values. -/
structure Ndcgs (K : Type) where
  ndcg : List K
  weight : K

/-- evaluators/query_metrics/ndcg.py 152–158: the weighted values of one query; the gains are read again for each position. -/
def ndcgLoop (log2 : ℕ → K) (gainKey : String) (docs : List (Doc K)) (w : K) : List ℤ → Except Err (List K)
  | [] => .ok []
  | a :: as => match featureValues gainKey docs with
    | .error e => .error e
    | .ok gains => match ndcgAt log2 gains a with
      | .error e => .error e
      | .ok v => match ndcgLoop log2 gainKey docs w as with
        | .error e => .error e
        | .ok vs => .ok (v * w :: vs)

/-- evaluators/query_metrics/ndcg.py 130–134 `_add_states`. -/
def addNdcgs (l r : Ndcgs K) : Ndcgs K := ⟨List.zipWith (· + ·) l.ndcg r.ndcg, l.weight + r.weight⟩

/-- evaluators/query_metrics/ndcg.py 136–160 `add_input`. -/
def ndcgAdd (log2 : ℕ → K) (ats : List ℤ) (gainKey weightKey : String) (a : Ndcgs K) (docs : List (Doc K)) : Except Err (Ndcgs K) :=
  match queryWeight weightKey docs with
  | .error e => .error e
  | .ok w => match ndcgLoop log2 gainKey docs w ats with
    | .error e => .error e
    | .ok vs => .ok (addNdcgs a ⟨vs, w⟩)

/-- evaluators/query_metrics/ndcg.py 64–167 `NdcgMetricCombineFn`. -/
def ndcgCombiner (log2 : ℕ → K) (ats : List ℤ) (gainKey weightKey : String) : CombineFn (List (Doc K)) (Ndcgs K) where
  create := ⟨List.replicate ats.length 0, 0⟩
  addInput := ndcgAdd log2 ats gainKey weightKey
  merge := mergeWith addNdcgs

/-- evaluators/query_metrics/ndcg.py 169–177 `extract_output`: the entries in order of insertion (an equal position overwrites);
post_export_metrics/metric_keys.py 29–31 `base_key`. -/
def ndcgOutput (ats : List ℤ) (a : Ndcgs K) : Dict String K :=
  (ats.zip a.ndcg).foldl (fun d x => d.set ("post_export_metrics/ndcg@" ++ toString x.1) (if 0 < a.weight then x.2 / a.weight else 0)) []

/-! ### Minimum label position -/

/-- evaluators/query_metrics/min_label_position.py 33–35 `_State`. -/
structure Positions (K : Type) where
  minPosSum : K
  weightSum : K

/-- evaluators/query_metrics/min_label_position.py 76–83: the key of the label (utils/util.py 56–58 `default_dict_key`). -/
def labelKeyOf (labelKey : String) : String := if labelKey = "" then "__labels" else labelKey

/-- evaluators/query_metrics/min_label_position.py 85–89, 118: whether the label is positive; a label that is missing is 0, one with
several elements has no truth value (nor has one without elements in recent versions of numpy). -/
def positive (labelKey : String) (d : Doc K) : Except Err Bool := match d.labels.get? labelKey with
  | none => .ok false
  | some [v] => .ok (decide (0 < v))
  | some _ => .error .valueError

/-- evaluators/query_metrics/min_label_position.py 116–120: the loop over the documents from position `pos`. -/
def minPosition (labelKey : String) (pos : ℕ) : List (Doc K) → Except Err (Option ℕ)
  | [] => .ok none
  | d :: ds => match positive labelKey d with
    | .error e => .error e
    | .ok true => .ok (some (pos + 1))
    | .ok false => minPosition labelKey (pos + 1) ds

/-- evaluators/query_metrics/min_label_position.py 94–98 `_add_states`. -/
def addPositions (l r : Positions K) : Positions K := ⟨l.minPosSum + r.minPosSum, l.weightSum + r.weightSum⟩

/-- evaluators/query_metrics/min_label_position.py 100–126 `add_input`. -/
def positionAdd (labelKey weightKey : String) (a : Positions K) (docs : List (Doc K)) : Except Err (Positions K) :=
  match queryWeight weightKey docs with
  | .error e => .error e
  | .ok w => match minPosition labelKey 0 docs with
    | .error e => .error e
    | .ok none => .ok (addPositions a ⟨0, 0⟩)
    | .ok (some p) => .ok (addPositions a ⟨p, w⟩)

/-- evaluators/query_metrics/min_label_position.py 62–133 `MinLabelPositionCombineFn`. -/
def positionCombiner (labelKey weightKey : String) : CombineFn (List (Doc K)) (Positions K) where
  create := ⟨0, 0⟩
  addInput := positionAdd (labelKeyOf labelKey) weightKey
  merge := mergeWith addPositions

/-- evaluators/query_metrics/min_label_position.py 135–142 `extract_output`. -/
def positionOutput (labelKey : String) (a : Positions K) : Dict String K :=
  if 0 < a.weightSum then
    [("post_export_metrics/average_min_label_position/" ++ labelKeyOf labelKey, a.minPosSum / a.weightSum)]
  else []

/-! ### Statistics -/

/-- evaluators/query_metrics/query_statistics.py 25–44 `_State`. -/
structure Stats where
  totalQueries : ℕ
  totalDocuments : ℕ
  minDocuments : ℕ
  maxDocuments : ℕ
  deriving DecidableEq, Repr

/-- evaluators/query_metrics/query_statistics.py 34–38 `merge`. -/
def Stats.merge (a b : Stats) : Stats :=
  ⟨a.totalQueries + b.totalQueries, a.totalDocuments + b.totalDocuments, min a.minDocuments b.minDocuments,
    max a.maxDocuments b.maxDocuments⟩

/-- evaluators/query_metrics/query_statistics.py 40–44 `add` for a query with `n` documents. -/
def Stats.add (a : Stats) (n : ℕ) : Stats :=
  ⟨a.totalQueries + 1, a.totalDocuments + n, min a.minDocuments n, max a.maxDocuments n⟩

/-- evaluators/query_metrics/query_statistics.py 47–69 `QueryStatisticsCombineFn` on the numbers of documents. -/
def statsCombiner : CombineFn ℕ Stats where
  create := ⟨0, 0, 1000000000, 0⟩
  addInput a n := .ok (a.add n)
  merge := mergeWith Stats.merge

/-- evaluators/query_metrics/query_statistics.py 71–77 `extract_output`. -/
def statsOutput (a : Stats) : Dict String ℕ :=
  [("post_export_metrics/total_queries", a.totalQueries), ("post_export_metrics/total_documents", a.totalDocuments),
    ("post_export_metrics/min_documents", a.minDocuments), ("post_export_metrics/max_documents", a.maxDocuments)]

end QueryMetrics
end TFMA
