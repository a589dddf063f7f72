import Verif.Model.Config
import Verif.Model.Extracts
import Verif.Model.Inputs

/-!
# Extracting labels, example weights and predictions

utils/model_util.py 269–353 and 859–1097, extractors/labels_extractor.py, extractors/example_weights_extractor.py,
extractors/materialized_predictions_extractor.py, extractors/predictions_extractor.py,
extractors/transformed_features_extractor.py, extractors/unbatch_extractor.py.

The values of features and of model outputs are of an arbitrary type `V`; what a saved model computes is a parameter.
-/

namespace TFMA
namespace Extraction

open Config (ModelSpec)

variable {V : Type}

/-- The parts of a batched extract that are read: features (a flat dictionary; a missing key and a key with None
or an empty dictionary are the same) and transformed features (nested by model name or not).
(utils/model_util.py 305–325) -/
structure Batch (V : Type) where
  features : Dict String V
  transformed : Forest V

/-- utils/model_util.py 313–325: the transformed features used for a model spec.  If the name of the model is the name
of a transformed feature, `transformed_features or {}` is the truth value of an array, which raises ValueError (for
arrays of more than one element, as assumed here). -/
def transformedFor (name : String) (t : Forest V) : Except Err (Forest V) :=
  match t.find? name with
  | none => .ok t
  | some (.node g) => .ok g
  | some (.leaf _) => .error .valueError

/-- utils/model_util.py 329–332 and 341–344: the value of one key.  `np.asarray` of a dictionary (the
key is the name of another model) yields an array holding the dictionary, which no later step accepts: TypeError. -/
def lookup (t : Forest V) (features : Dict String V) (key : String) : Except Err (Option V) :=
  match t.find? key with
  | some (.leaf v) => .ok (some v)
  | some (.node _) => .error .typeError
  | none => .ok (Dict.get? features key)

/-- utils/model_util.py 340–346: `output_values`. -/
def outputValues (t : Forest V) (features : Dict String V) (allowMissing : Bool) :
    Dict String String → Forest (Option V) → Except Err (Forest (Option V))
  | [], acc => .ok acc
  | (output, key) :: rest, acc => match lookup t features key with
    | .error e => .error e
    | .ok (some v) => outputValues t features allowMissing rest (acc.set output (.leaf (some v)))
    | .ok none => outputValues t features allowMissing rest
        (if allowMissing then acc.set output (.leaf none) else acc)

/-- utils/model_util.py 327–350: what is stored for one model spec, if anything. -/
def specValue (key : String) (keys : Dict String String) (t : Forest V) (features : Dict String V)
    (allowMissing : Bool) : Except Err (Option (Tree (Option V))) :=
  if key ≠ "" then match lookup t features key with
    | .error e => .error e
    | .ok (some v) => .ok (some (.leaf (some v)))
    | .ok none => .ok (if allowMissing then some (.leaf none) else none)
  else if keys ≠ [] then match outputValues t features allowMissing keys .nil with
    | .error e => .error e
    | .ok f => .ok (if f.isEmpty then none else some (.node f))
  else .ok (if allowMissing then some (.leaf none) else none)

/-- utils/model_util.py 311–350: the loop over the model specs. -/
def specValues (field : ModelSpec → String) (fields : ModelSpec → Dict String String) (b : Batch V)
    (allowMissing : Bool) : List ModelSpec → Forest (Option V) → Except Err (Forest (Option V))
  | [], acc => .ok acc
  | s :: rest, acc => match transformedFor s.name b.transformed with
    | .error e => .error e
    | .ok t => match specValue (field s) (fields s) t b.features allowMissing with
      | .error e => .error e
      | .ok none => specValues field fields b allowMissing rest acc
      | .ok (some v) => specValues field fields b allowMissing rest (acc.set s.name v)

/-- utils/model_util.py 269–353 `get_feature_values_for_model_spec_field`; None is a leaf `none`. -/
def featureValues (specs : List ModelSpec) (field : ModelSpec → String) (fields : ModelSpec → Dict String String)
    (b : Batch V) (allowMissing : Bool) : Except Err (Tree (Option V)) :=
  match specValues field fields b allowMissing specs .nil with
  | .error e => .error e
  | .ok .nil => .ok (.leaf none)
  | .ok (.cons k t rest) => .ok (if specs.length = 1 then t else .node (.cons k t rest))

/-- extractors/labels_extractor.py 70–85: the value stored under "labels". -/
def extractLabels (specs : List ModelSpec) (b : Batch V) : Except Err (Tree (Option V)) :=
  featureValues specs ModelSpec.labelKey ModelSpec.labelKeys b true

/-- `x if x is not None else old` for the value stored under a key.
(extractors/example_weights_extractor.py 84–85, extractors/materialized_predictions_extractor.py 92–98) -/
def orKeep {β : Type} (old : Tree (Option β)) : Tree (Option β) → Tree (Option β)
  | .leaf none => old
  | t => t

/-- extractors/example_weights_extractor.py 70–86: the value under "example_weights" afterwards; `old` is the one before
(a leaf `none` if there is none). -/
def extractWeights (specs : List ModelSpec) (b : Batch V) (old : Tree (Option V)) : Except Err (Tree (Option V)) :=
  match featureValues specs ModelSpec.exampleWeightKey ModelSpec.exampleWeightKeys b false with
  | .error e => .error e
  | .ok t => .ok (orKeep old t)

/-- extractors/materialized_predictions_extractor.py 81–98: the value under the output key afterwards. -/
def extractPredictions (specs : List ModelSpec) (b : Batch V) (old : Tree (Option V)) : Except Err (Tree (Option V)) :=
  match featureValues specs ModelSpec.predictionKey ModelSpec.predictionKeys b false with
  | .error e => .error e
  | .ok t => .ok (orKeep old t)

/-! ### Outputs of models -/

/-- A dictionary of values as a dictionary level. (utils/model_util.py 449–464) -/
def ofDict : Dict String V → Forest V
  | [] => .nil
  | (k, v) :: rest => .cons k (.leaf v) (ofDict rest)

/-- utils/model_util.py 1018–1081: the signatures of one model that are called, in order, and what each of them
returns; none stands for a signature that is not found.  A signature that is required must be found
(`required = bool(signature_names[model_name])`); no entry for the model is made if none of the default
signatures is found. -/
def modelOutputs (required : Bool) : List (Option (Dict String V)) → Except Err (Option (Dict String V))
  | [] => .ok none
  | none :: rest => if required then .error .valueError else modelOutputs required rest
  | some d :: rest => match modelOutputs required rest with
    | .error e => .error e
    | .ok none => .ok (some d)
    | .ok (some d') => .ok (some (d'.foldl (fun acc kv => Dict.set acc kv.1 kv.2) d))

/-- utils/model_util.py 1014–1081: the outputs of all models; `models` holds the results of the calls by model name. -/
def outputsPerModel (required : String → Bool) :
    List (String × List (Option (Dict String V))) → Except Err (List (String × Dict String V))
  | [] => .ok []
  | (name, calls) :: rest => match modelOutputs (required name) calls with
    | .error e => .error e
    | .ok out => match outputsPerModel required rest with
      | .error e => .error e
      | .ok outs => .ok (match out with
        | none => outs
        | some d => (name, d) :: outs)

/-- utils/model_util.py 1083–1085: a single output is stored itself unless dictionaries are preferred. -/
def unwrapOutput (preferDict : Bool) (d : Dict String V) : Tree V :=
  match preferDict, d with
  | false, [(_, v)] => .leaf v
  | _, d => .node (ofDict d)

/-- The outputs by model. (utils/model_util.py 1083–1085) -/
def unwrapAll (preferDict : Bool) : List (String × Dict String V) → Forest V
  | [] => .nil
  | (name, d) :: rest => .cons name (unwrapOutput preferDict d) (unwrapAll preferDict rest)

/-- utils/model_util.py 1083–1093: the value that is stored. -/
def storeOutputs (preferDict : Bool) (outs : List (String × Dict String V)) : Tree V :=
  match outs with
  | [(_, d)] => unwrapOutput preferDict d
  | _ => .node (unwrapAll preferDict outs)

/-- The dictionary stored under "transformed_features". (extractors/transformed_features_extractor.py 91–104) -/
def storedForest : Tree V → Forest V
  | .node f => f
  | .leaf _ => .nil

/-! ### One by one if the batch fails -/

/-- utils/model_util.py 891–896: exceptions after which the rows are processed one by one; the errors of
TensorFlow are `runtimeError`s here. -/
def retried : Err → Bool
  | .valueError => true
  | .runtimeError => true
  | _ => false

variable {α : Type}

/-- The loop of utils/model_util.py 906–909. -/
def serially (f : Forest (Extracts.Leaf α) → Except Err (Forest (Extracts.Leaf α))) :
    List (Forest (Extracts.Leaf α)) → Except Err (List (Forest (Extracts.Leaf α)))
  | [] => .ok []
  | x :: xs => match f x with
    | .error e => .error e
    | .ok y => match serially f xs with
      | .error e => .error e
      | .ok ys => .ok (y :: ys)

/-- utils/util.py 412–433: the batch size of one value; None has none.  (`object` arrays are not modelled.) -/
def leafSize : Extracts.Leaf α → Option ℕ
  | .none => none
  | .nd shape _ => some (shape.headD 0)
  | .varlen t => some (t.denseShape.headD 0)
  | .sparse t => some (t.denseShape.headD 0)
  | .ragged t => some ((t.splits.headD []).length - 1)
  | .object => none

/-- utils/util.py 400–409: the sizes found so far and the next one. -/
def combineSizes (result sz : Option ℕ) : Except Err (Option ℕ) :=
  match sz, result with
  | none, r => .ok r
  | some n, none => .ok (some n)
  | some n, some m => if n = m then .ok (some m) else .error .valueError

mutual
/-- utils/util.py 392–436 `batch_size`. -/
def batchSize : Tree (Extracts.Leaf α) → Except Err (Option ℕ)
  | .leaf v => .ok (leafSize v)
  | .node f => batchSizes f none
/-- the loop over the values of a dictionary. (utils/util.py 400–410) -/
def batchSizes : Forest (Extracts.Leaf α) → Option ℕ → Except Err (Option ℕ)
  | .nil, result => .ok result
  | .cons _ t rest, result => match batchSize t with
    | .error e => .error e
    | .ok sz => match combineSizes result sz with
      | .error e => .error e
      | .ok r => batchSizes rest r
end

/-- utils/model_util.py 884–911 `process` (`split_extracts` is called with expand_zero_dims at its default, True);
`f` is `_batch_reducible_process`, which yields one extract. -/
def process (f : Forest (Extracts.Leaf α) → Except Err (Forest (Extracts.Leaf α)))
    (element : Forest (Extracts.Leaf α)) : Except Err (List (Forest (Extracts.Leaf α))) :=
  match batchSize (.node element) with
  | .error e => .error e
  | .ok _ => match f element with
    | .ok r => .ok [r]
    | .error e =>
      if retried e then match Extracts.splitExtracts true true element with
        | .error e => .error e
        | .ok xs => serially f xs
      else .error e

/-- utils/model_util.py 440–447 `_check_shape`: the first dimension is the batch size. -/
def checkShape (n : Option ℕ) : Extracts.Leaf α → Except Err Unit
  | .nd (m :: _) _ => if n = some m then .ok () else .error .valueError
  | _ => .error .indexError

/-- utils/model_util.py 999–1097 for one model with one output stored under a single key (`copy_and_set_by_keys`):
`call` is the signature applied to what it needs of the extract. -/
def predictWith (call : Forest (Extracts.Leaf α) → Except Err (Extracts.Leaf α))
    (key : String) (element : Forest (Extracts.Leaf α)) : Except Err (Forest (Extracts.Leaf α)) :=
  match batchSize (.node element) with
  | .error e => .error e
  | .ok n => match call element with
    | .error e => .error e
    | .ok out => match checkShape n out with
      | .error e => .error e
      | .ok () => .ok (element.set key (.leaf out))

/-! ### Unbatching -/

/-- `dataframe.to_dict(orient="records")` for lists of the same length: record `i` has the `i`-th value of every key.
(extractors/unbatch_extractor.py 66–79) -/
def records (lists : Dict String (List V)) : ℕ → ℕ → List (Dict String V)
  | _, 0 => []
  | i, n + 1 => (lists.filterMap fun kv => (kv.2[i]?).map fun v => (kv.1, v)) :: records lists (i + 1) n

/-- extractors/unbatch_extractor.py 62–77: a list of another length is refused by pandas (RuntimeError).
(An empty list beside longer ones, which pandas fills with NaN, is refused here too.) -/
def legacyRows (lists : Dict String (List V)) : Except Err (List (Dict String V)) :=
  match lists with
  | [] => .ok []
  | (_, l) :: rest => if rest.all (fun kv => kv.2.length = l.length) then .ok (records lists 0 l.length)
    else .error .runtimeError

/-- An individual extract: values from lists and values from arrays, whose keys differ.
(extractors/unbatch_extractor.py 88–93) -/
structure Unbatched (V α : Type) where
  legacy : Dict String V
  extract : Forest (Extracts.Leaf α)

/-- extractors/unbatch_extractor.py 46–90 `_extract_unbatched_inputs`: `lists` are the keys whose values are lists, the
record batch is left out. -/
def unbatch (lists : Dict String (List V)) (batched : Forest (Extracts.Leaf α)) :
    Except Err (List (Unbatched V α)) :=
  match legacyRows lists with
  | .error e => .error e
  | .ok ls => match Extracts.splitExtracts false true batched with
    | .error e => .error e
    | .ok xs =>
      if xs ≠ [] ∧ ls ≠ [] then
        if xs.length ≠ ls.length then .error .valueError
        else .ok (List.zipWith (fun l x => ⟨l, x⟩) ls xs)
      else if ls ≠ [] then .ok (ls.map fun l => ⟨l, .nil⟩)
      else .ok (xs.map fun x => ⟨[], x⟩)

end Extraction
end TFMA
