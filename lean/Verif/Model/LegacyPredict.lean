import Verif.Py.Tree
import Verif.Py.Basic
import Mathlib.Data.Nat.Notation

/-!
# The legacy predict extractor

extractors/legacy_predict_extractor.py and the batch processing of utils/model_util.py 805–853 below it. A loaded model is its
`predict_list`: a function from serialized examples to what was fetched, each with the position of the example it belongs to. Values are
opaque apart from the dictionaries they are in. How Beam makes batches and the materialisation of features (C144) are not modelled.
-/

namespace TFMA
namespace LegacyPredict

variable {V : Type}

/-- What a model fetched: the position of the example and the values by name. (legacy_predict_extractor.py 129–139) -/
structure Fetched (V : Type) where
  inputRef : ℕ
  values : Dict String (Tree V)

/-- Extracts of one example. (legacy_predict_extractor.py 121–124) -/
abbrev Ex (V : Type) := Dict String (Tree V)

/-- The parts of a model spec that matter here. (legacy_predict_extractor.py 99–119) -/
structure Spec where
  name : String
  exampleWeightKey : String := ""
  exampleWeightKeys : Dict String String := []
  deriving DecidableEq, Repr

/-- A loaded model under its name. (legacy_predict_extractor.py 128) -/
structure Loaded (V : Type) where
  name : String
  predict : List (Tree V) → Except Err (List (Fetched V))

/-- What is given to the extractor besides models: the weight of an example without weights, and the features, predictions and labels of
the legacy API. (legacy_predict_extractor.py 119, 148–152) -/
structure Env (V : Type) where
  ones : V
  fpl : String → Fetched V → V

/-- utils/model_util.py 137–146 `get_model_spec`. -/
def getSpec (specs : List Spec) (name : String) : Option Spec :=
  if specs.length = 1 ∧ name = "" then specs.head? else specs.find? fun s => decide (s.name = name)

/-- The loop of legacy_predict_extractor.py 110–116. -/
def weightsByOutput (features : Forest V) : Dict String String → Except Err (Forest V)
  | [] => .ok .nil
  | (output, key) :: rest => match features.find? key with
    | none => .error .valueError
    | some w => match weightsByOutput features rest with
      | .error e => .error e
      | .ok f => .ok (.cons output w f)

/-- legacy_predict_extractor.py 99–119 `_get_example_weights`; features that are no dictionary are refused where they are looked up. -/
def exampleWeights (env : Env V) (specs : List Spec) (model : String) (features : Tree V) : Except Err (Tree V) :=
  match getSpec specs model with
  | none => .error .valueError
  | some s =>
    if s.exampleWeightKey ≠ "" then match features with
      | .leaf _ => .error .typeError
      | .node f => match f.find? s.exampleWeightKey with
        | none => .error .valueError
        | some w => .ok w
    else if s.exampleWeightKeys ≠ [] then match features with
      | .leaf _ => .error .typeError
      | .node f => match weightsByOutput f s.exampleWeightKeys with
        | .error e => .error e
        | .ok g => .ok (.node g)
    else .ok (.leaf env.ones)

/-- legacy_predict_extractor.py 131–163: a copy of the example with what the first model fetched for it. -/
def newRow (env : Env V) (config : Option (List Spec)) (several : Bool) (model : String) (elements : List (Ex V)) (x : Fetched V) :
    Except Err (Ex V) :=
  match elements[x.inputRef]? with
  | none => .error .indexError
  | some e => match config with
    | none =>
      let e := Dict.update e (x.values.filter fun kv => decide (kv.1 ∉ ["features", "predictions", "labels"]))
      if several then .error .valueError else .ok (Dict.set e "_fpl" (.leaf (env.fpl model x)))
    | some specs =>
      let e := Dict.update e x.values
      match Dict.get? e "features" with
      | none => .error .keyError
      | some features => match exampleWeights env specs model features with
        | .error err => .error err
        | .ok w =>
          let e := Dict.set e "example_weights" w
          if several then match Dict.get? e "predictions" with
            | none => .error .keyError
            | some p => .ok (Dict.set e "predictions" (.node (.cons model p .nil)))
          else .ok e

/-- legacy_predict_extractor.py 165–169: the predictions of another model. -/
def addTo (model : String) (row : Ex V) (x : Fetched V) : Except Err (Ex V) :=
  match Dict.get? x.values "predictions" with
  | none => .error .keyError
  | some p => match Dict.get? row "predictions" with
    | none => .error .keyError
    | some (.leaf _) => .error .typeError
    | some (.node f) => .ok (Dict.set row "predictions" (.node (f.set model p)))

/-- The inner loop of legacy_predict_extractor.py 129–169. -/
def fetchedLoop (env : Env V) (config : Option (List Spec)) (several : Bool) (model : String) (elements : List (Ex V)) :
    ℕ → List (Fetched V) → List (Ex V) → Except Err (List (Ex V))
  | _, [], rows => .ok rows
  | i, x :: xs, rows => match rows[i]? with
    | none => match newRow env config several model elements x with
      | .error e => .error e
      | .ok row => fetchedLoop env config several model elements (i + 1) xs (rows ++ [row])
    | some row => match addTo model row x with
      | .error e => .error e
      | .ok row => fetchedLoop env config several model elements (i + 1) xs (rows.set i row)

/-- The outer loop of legacy_predict_extractor.py 128–169. -/
def modelsLoop (env : Env V) (config : Option (List Spec)) (several : Bool) (elements : List (Ex V)) (inputs : List (Tree V)) :
    List (Loaded V) → List (Ex V) → Except Err (List (Ex V))
  | [], rows => .ok rows
  | m :: ms, rows => match m.predict inputs with
    | .error e => .error e
    | .ok xs => match fetchedLoop env config several m.name elements 0 xs rows with
      | .error e => .error e
      | .ok rows => modelsLoop env config several elements inputs ms rows

/-- legacy_predict_extractor.py 124. -/
def inputsOf : List (Ex V) → Except Err (List (Tree V))
  | [] => .ok []
  | e :: es => match Dict.get? e "input" with
    | none => .error .keyError
    | some v => match inputsOf es with
      | .error err => .error err
      | .ok vs => .ok (v :: vs)

/-- legacy_predict_extractor.py 121–169: the extracts of the examples. -/
def rowsOf (env : Env V) (config : Option (List Spec)) (models : List (Loaded V)) (elements : List (Ex V)) :
    Except Err (List (Ex V)) :=
  match inputsOf elements with
  | .error e => .error e
  | .ok inputs => modelsLoop env config (decide (models.length ≠ 1)) elements inputs models []

/-- `result[key].append(value)` with a default of the empty list. (legacy_predict_extractor.py 180–183) -/
def appendTo (d : Dict String (List (Tree V))) (kv : String × Tree V) : Dict String (List (Tree V)) :=
  Dict.set d kv.1 ((Dict.get? d kv.1).getD [] ++ [kv.2])

/-- legacy_predict_extractor.py 178–184 `_wrap_as_batched_extract`. -/
def wrap (rows : List (Ex V)) : Dict String (List (Tree V)) := rows.foldl (fun d e => e.foldl appendTo d) []

/-- What the extractor yields: extracts of an example, or of a batch. (legacy_predict_extractor.py 170–172) -/
inductive Out (V : Type) where
  | row (e : Ex V)
  | batch (d : Dict String (List (Tree V)))

/-- legacy_predict_extractor.py 121–172 `_batch_reducible_process`. -/
def batchProcess (env : Env V) (config : Option (List Spec)) (models : List (Loaded V)) (elements : List (Ex V)) :
    Except Err (List (Out V)) :=
  match rowsOf env config models elements with
  | .error e => .error e
  | .ok rows => match config with
    | some _ => .ok [.batch (wrap rows)]
    | none => .ok (rows.map .row)

/-- The loop of utils/model_util.py 849–851. -/
def oneByOne (f : List (Ex V) → Except Err (List (Out V))) : List (Ex V) → Except Err (List (Out V))
  | [] => .ok []
  | e :: es => match f [e] with
    | .error err => .error err
    | .ok r => match oneByOne f es with
      | .error err => .error err
      | .ok rs => .ok (r ++ rs)

/-- utils/model_util.py 829–853 `process`; the errors of TensorFlow that are caught there are `valueError`s here. -/
def process (env : Env V) (config : Option (List Spec)) (models : List (Loaded V)) (elements : List (Ex V)) :
    Except Err (List (Out V)) :=
  match batchProcess env config models elements with
  | .ok r => .ok r
  | .error .valueError => oneByOne (batchProcess env config models) elements
  | .error e => .error e

/-- A value of a batched extract: a record batch by column, or one value per example. (legacy_predict_extractor.py 187–210) -/
inductive Col (V : Type) where
  | arrow (columns : Dict String (List V))
  | values (l : List (Tree V))

/-- legacy_predict_extractor.py 203–210 `_unwrap_batched_extract` with `_fetch_raw_data_column` (187–200); `raw` is
`constants.ARROW_INPUT_COLUMN`. -/
def unwrap (raw : String) (batch : Dict String (Col V)) : Except Err (List (Ex V)) :=
  match Dict.get? batch "arrow_record_batch" with
  | none => .error .keyError
  | some (.values _) => .error .attributeError
  | some (.arrow columns) => match Dict.get? columns raw with
    | none => .error .assertionError
    | some vs => .ok (vs.map fun v => [("input", .leaf v)])

/-- legacy_predict_extractor.py 216–280 `_TFMAPredict` with an eval config, for one batch. -/
def predictBatch (env : Env V) (raw : String) (specs : List Spec) (models : List (Loaded V)) (batch : Dict String (Col V)) :
    Except Err (List (Out V)) :=
  match unwrap raw batch with
  | .error e => .error e
  | .ok elements => process env (some specs) models elements

end LegacyPredict
end TFMA
