import Verif.Beam.PerKey
import Verif.Model.Extracts
import Verif.Model.Slicer

/-!
# Metrics by query key

`MetricsSpec.query_key` asks for metrics over queries: the examples that agree in the feature of that name are merged
into one record before the metrics are computed (evaluators/metrics_plots_and_validations_evaluator.py 199–245 and
1008–1064).  An example is modelled by the value of the query feature, its slice keys and the rest of its extracts.
-/

namespace TFMA
namespace Queries

open Beam Extracts VarLen Slicer

/-- An example on its way to a query metric: the elements of the query feature (None if the example does not have
it), the slice keys found by the extractor and the other extracts.
(evaluators/metrics_plots_and_validations_evaluator.py 222–238, extractors/slice_key_extractor.py 139–141) -/
structure Example (ν α : Type) where
  query : Option (List ν)
  slices : List SliceKey
  extracts : Forest (Leaf α)

variable {ν α : Type}

/-- metrics/metric_util.py 217–231 `to_scalar`: the tensor is given by its elements. -/
def toScalar : Option (List ν) → Except Err (Option ν)
  | none => .ok none
  | some [v] => .ok (some v)
  | some _ => .error .valueError

/-- evaluators/metrics_plots_and_validations_evaluator.py 222–236 `key_by_query_key`; `text v` is `f"{v}"`.  The counter
of examples without the feature is not modelled. -/
def queryKey (text : ν → String) (e : Example ν α) : Except Err String :=
  match toScalar e.query with
  | .error err => .error err
  | .ok none => .ok ""
  | .ok (some v) => .ok (text v)

/-- `beam.Map(key_by_query_key, query_key)` (evaluators/metrics_plots_and_validations_evaluator.py 241). -/
def keyByQuery (text : ν → String) : List (Example ν α) → Except Err (List (String × Example ν α))
  | [] => .ok []
  | e :: es => match queryKey text e with
    | .error err => .error err
    | .ok q => match keyByQuery text es with
      | .error err => .error err
      | .ok rest => .ok ((q, e) :: rest)

/-- `beam.combiners.ToListCombineFn` (apache_beam; used in
evaluators/metrics_plots_and_validations_evaluator.py 242). -/
def toListCombineFn {ε : Type} : CombineFn ε (List ε) where
  create := []
  addInput acc x := .ok (acc ++ [x])
  merge accs := .ok accs.flatten

/-- The record of a query: the merged slice keys and the merged other extracts. (utils/util.py 877–991) -/
structure Merged (α : Type) where
  slices : Leaf SliceKey
  extracts : Forest (Leaf α)

/-- `util.merge_extracts` of the examples of one query
(evaluators/metrics_plots_and_validations_evaluator.py 244).  The slice keys of an example are an array of one
dimension (slicer/slicer_lib.py 540–560); `merge_extracts` treats the keys of the dictionaries one by one, so merging the
slice keys apart from the rest gives the same, or an exception in the same cases. -/
def mergeGroup (es : List (Example ν α)) : Except Err (Merged α) :=
  match mergeLeaf true (es.map fun e => Leaf.nd [e.slices.length] e.slices) with
  | .error _ => .error .runtimeError
  | .ok ks => match mergeExtracts true (es.map Example.extracts) with
    | .error err => .error err
    | .ok x => .ok ⟨ks, x⟩

/-- The loop of `beam.Map(util.merge_extracts)` over the groups
(evaluators/metrics_plots_and_validations_evaluator.py 243–244). -/
def mergeGroups : List (String × List (Example ν α)) → Except Err (List (Merged α))
  | [] => .ok []
  | g :: gs => match mergeGroup g.2 with
    | .error err => .error err
    | .ok m => match mergeGroups gs with
      | .error err => .error err
      | .ok ms => .ok (m :: ms)

/-- The slice keys of a record, as slicer/slicer_lib.py 685–693 reads them: the values of a VarLenTensorValue, the
flattened form of an array of two dimensions, else the value itself (a python set of None or of the rows of a larger
array would raise TypeError). -/
def sliceKeys : Leaf SliceKey → Except Err (List SliceKey)
  | .varlen t => .ok t.values
  | .nd [_, _] d => .ok d
  | .nd [_] d => .ok d
  | _ => .error .typeError

/-- slicer/slicer_lib.py 680–698 `_FanoutSlicesDoFn.process` for the record of a query. -/
def fanoutMerged (m : Merged α) : Except Err (List (SliceKey × Forest (Leaf α))) :=
  match sliceKeys m.slices with
  | .error err => .error err
  | .ok ks => .ok ((keySet ks).map fun k => (k, m.extracts))

/-- `beam.ParDo(_FanoutSlicesDoFn)` over the records. (slicer/slicer_lib.py 729–752) -/
def fanoutAll : List (Merged α) → Except Err (List (SliceKey × Forest (Leaf α)))
  | [] => .ok []
  | m :: ms => match fanoutMerged m with
    | .error err => .error err
    | .ok ps => match fanoutAll ms with
      | .error err => .error err
      | .ok qs => .ok (ps ++ qs)

/-- What the metrics of a spec with a query key are computed from: `out` are the pairs of slice key and record that can
come out of grouping (evaluators/metrics_plots_and_validations_evaluator.py 239–245) followed by the fan-out
(slicer/slicer_lib.py 729–752).  The preprocessors in between are the subject of C124. -/
def QueryRun (text : ν → String) (data : List (Example ν α)) (out : List (SliceKey × Forest (Leaf α))) : Prop :=
  ∃ keyed groups merged, keyByQuery text data = .ok keyed ∧ CombinesPerKey toListCombineFn keyed groups ∧
    mergeGroups groups = .ok merged ∧ fanoutAll merged = .ok out

/-- `len(element.prediction)` (metrics/query_statistics.py 181, metrics/metric_types.py 951–954): the number of rows of
an array, the number of entries of a dictionary, and 3 for a VarLenTensorValue or SparseTensorValue, which
are tuples of three fields (2 for a RaggedTensorValue; api/types.py 41–86).  The length of an array of dtype object is not modelled (TypeError here). -/
def documents (record : Forest (Leaf α)) : Except Err ℕ :=
  match record.find? "predictions" with
  | none => .error .typeError
  | some (.node f) => .ok f.keys.length
  | some (.leaf (.nd (n :: _) _)) => .ok n
  | some (.leaf (.varlen _)) => .ok 3
  | some (.leaf (.sparse _)) => .ok 3
  | some (.leaf (.ragged _)) => .ok 2
  | some (.leaf _) => .error .typeError

/-- What the combiner of the query statistics is given for a record without example weights: the number of documents
with the weight 1. (metrics/query_statistics.py 165–187) -/
def statisticsInput (record : Forest (Leaf α)) : Except Err (List (ℕ × ℚ)) :=
  match documents record with
  | .error err => .error err
  | .ok n => .ok [(n, 1)]

/-! ### the specs by query key -/

variable {σ : Type}

/-- evaluators/metrics_plots_and_validations_evaluator.py 1010–1013: append a spec to the list of its query key. -/
def addSpec (key : String) (spec : σ) : List (String × List σ) → List (String × List σ)
  | [] => [(key, [spec])]
  | (k, l) :: rest => if k = key then (k, l ++ [spec]) :: rest else (k, l) :: addSpec key spec rest

/-- One evaluation: the query key to group by (none if it is empty), the specs, and whether the metrics saved with the
models are included. (evaluators/metrics_plots_and_validations_evaluator.py 1023–1052) -/
structure Job (σ : Type) where
  groupBy : Option String
  specs : List σ
  includeDefault : Bool
  deriving DecidableEq, Repr

/-- evaluators/metrics_plots_and_validations_evaluator.py 1023–1039: the evaluation for the specs of one query key.
`option` is `include_default_metrics` of the options, None if unset. -/
def jobOf (option : Option Bool) (g : String × List σ) : Job σ :=
  if g.1 = "" then ⟨none, g.2, option.getD true⟩ else ⟨some g.1, g.2, false⟩

/-- evaluators/metrics_plots_and_validations_evaluator.py 1008–1052: the evaluations made for an eval config; `empty` is
`MetricsSpec()`. -/
def jobs (queryKeyOf : σ → String) (empty : σ) (option : Option Bool) (specs : List σ) : List (Job σ) :=
  let groups := specs.foldl (fun gs s => addSpec (queryKeyOf s) s gs) []
  let groups := if groups.isEmpty then [("", [empty])] else groups
  groups.map (jobOf option)

end Queries
end TFMA
