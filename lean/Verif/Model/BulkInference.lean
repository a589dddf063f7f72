import Mathlib.Data.Rat.Defs
import Verif.Model.Extracts

/-!
# Bulk inference

extractors/inference_base.py (line numbers without a file), extractors/tfx_bsl_predictions_extractor.py and
utils/model_util.py 375–403 and 1148–1160.

What a model predicts is a parameter: a function from path, signature and serialized example to a prediction log.
TFX-BSL's RunInferencePerModel is assumed to return each key with the logs of its example, one per inference specification
and in their order, as its documentation says.  Elements of arrays are bytes, texts, numbers or prediction logs.
-/

namespace TFMA
namespace BulkInference

open Extracts (Leaf)

/-- prediction_log_pb2.PredictionLog as far as it is read (122–186); a tensor is its shape and elements. -/
inductive Log where
  | classify (classifications : List (List (String × ℚ)))
  | regress (values : List ℚ)
  | predict (outputs : Dict String (List ℕ × List ℚ))
  | multiInference
  | session
  | unset
  deriving DecidableEq

/-- An element of an array in the extracts. -/
inductive Cell where
  | bytes (b : String)
  | text (s : String)
  | num (q : ℚ)
  | log (l : Log)
  deriving DecidableEq

/-- One example's extracts, or a batch of them. -/
abbrev Ext := Forest (Leaf Cell)

/-- 98–119 `_create_inference_input_tuple`: the serialized example. Indexing None or a tuple with `[()]` raises TypeError,
indexing a dictionary raises KeyError, which is reported like a missing input (104–113). -/
def modelInput (e : Ext) : Except Err String :=
  match e.find? "input" with
  | none => .error .valueError
  | some (.node _) => .error .valueError
  | some (.leaf .none) => .error .typeError
  | some (.leaf (.varlen _)) => .error .typeError
  | some (.leaf (.sparse _)) => .error .typeError
  | some (.leaf (.ragged _)) => .error .typeError
  | some (.leaf (.nd [] [.bytes b])) => .ok b
  | some (.leaf _) => .error .valueError

/-- `np.squeeze(tensor, axis=0)`. (172) -/
def squeeze0 : List ℕ × List ℚ → Except Err (Tree (Leaf Cell))
  | (1 :: s, d) => .ok (.leaf (.nd s (d.map .num)))
  | _ => .error .valueError

/-- 170–173: the tensors by name. -/
def squeezeAll : Dict String (List ℕ × List ℚ) → Forest (Leaf Cell) → Except Err (Forest (Leaf Cell))
  | [], acc => .ok acc
  | (k, t) :: rest, acc => match squeeze0 t with
    | .error e => .error e
    | .ok v => squeezeAll rest (acc.set k v)

/-- A dictionary of one entry is replaced by its value. (176–178, 225–230) -/
def unwrap : Forest (Leaf Cell) → Tree (Leaf Cell)
  | .cons _ t .nil => t
  | f => .node f

/-- 122–186 `_parse_prediction_log_to_tensor_value`. -/
def parseLog : Log → Except Err (Tree (Leaf Cell))
  | .classify [classes] => .ok (.node (.cons "classes" (.leaf (.nd [classes.length] (classes.map fun c => .text c.1)))
      (.cons "scores" (.leaf (.nd [classes.length] (classes.map fun c => .num c.2))) .nil)))
  | .classify _ => .error .assertionError
  | .regress vs => .ok (.leaf (.nd [vs.length] (vs.map .num)))
  | .predict outputs => match squeezeAll outputs .nil with
    | .error e => .error e
    | .ok f => .ok (unwrap f)
  | .multiInference => .error .notImplementedError
  | .session => .error .valueError
  | .unset => .error .notImplementedError

/-- utils/util.py 561–600 `copy_and_set_by_keys`, the result. -/
def copyAndSet : Tree (Leaf Cell) → List String → Tree (Leaf Cell) → Except Err (Tree (Leaf Cell))
  | _, [], _ => .error .valueError
  | .leaf _, _ :: _, _ => .error .valueError
  | .node f, [k], v => .ok (.node (f.set k v))
  | .node f, k :: k' :: ks, v =>
    match copyAndSet ((f.find? k).getD (.node .nil)) (k' :: ks) v with
    | .error e => .error e
    | .ok t => .ok (.node (f.set k t))

/-- 217–220: the parsed logs by model name. -/
def parseAll : Dict String Log → Forest (Leaf Cell) → Except Err (Forest (Leaf Cell))
  | [], acc => .ok acc
  | (name, l) :: rest, acc => match parseLog l with
    | .error e => .error e
    | .ok v => parseAll rest (acc.set name v)

/-- The prediction logs by model name as extracts; a log is an array of one object, as merging makes of it. (242–245) -/
def logForest : Dict String Log → Forest (Leaf Cell)
  | [] => .nil
  | (name, l) :: rest => .cons name (.leaf (.nd [] [.log l])) (logForest rest)

/-- 189–251 `insert_predictions_into_extracts`. -/
def insertPredictions (outputPath : List String) (logPath : Option (List String)) (e : Ext) (logs : Dict String Log) :
    Except Err (Tree (Leaf Cell)) :=
  match parseAll logs .nil with
  | .error er => .error er
  | .ok tensors => match copyAndSet (.node e) outputPath (unwrap tensors) with
    | .error er => .error er
    | .ok e' => match logPath with
      | none => .ok e'
      | some [] => .ok e'
      | some (k :: ks) => copyAndSet e' (k :: ks) (unwrap (logForest logs))

/-- An input of a signature: its name and whether it takes texts (bytes). (81–94) -/
abbrev Signature := Dict String Bool

/-- A shared model: its type, and the signatures of the graphs saved under its path. (api/types.py 290–330) -/
structure Shared where
  path : String
  modelType : String
  graphs : List (Dict String Signature)

/-- utils/model_util.py 375–392 `get_default_signature_name_from_saved_model_proto`. -/
def defaultSignature (graphs : List (Dict String Signature)) : String :=
  if graphs.any (fun g => Dict.has g "predict") then "predict" else "serving_default"

/-- utils/model_util.py 395–403 `get_signature_def_from_saved_model_proto`. -/
def signatureDef (name : String) : List (Dict String Signature) → Except Err Signature
  | [] => .error .valueError
  | g :: rest => match Dict.get? g name with
    | some s => .ok s
    | none => signatureDef name rest

/-- utils/model_util.py 1148–1160 `get_eval_shared_model`. -/
def sharedFor (name : String) (models : Dict String Shared) : Except Err Shared :=
  match Dict.get? models name with
  | some m => .ok m
  | none => match models with
    | [("", m)] => .ok m
    | _ => .error .valueError

/-- The fields of a config_pb2.ModelSpec used here. (proto/config.proto) -/
structure Spec where
  name : String
  signatureName : String

/-- 61–95: the loop over the model specs of `is_valid_config_for_bulk_inference`. -/
def validSpecs (models : Dict String Shared) : List Spec → Except Err Bool
  | [] => .ok true
  | s :: rest => match sharedFor s.name models with
    | .error e => .error e
    | .ok m =>
      let sig := if s.signatureName ≠ "" then s.signatureName else defaultSignature m.graphs
      match signatureDef sig m.graphs with
      | .error _ => .ok false
      | .ok inputs =>
        if inputs.length ≠ 1 then .ok false
        else if inputs.any (fun i => !i.2) then .ok false
        else validSpecs models rest

/-- `{m.model_name: m for m in eval_shared_models}`. (60) -/
def byName (models : List (String × Shared)) : Dict String Shared :=
  models.foldl (fun d m => Dict.set d m.1 m.2) []

/-- 33–95 `is_valid_config_for_bulk_inference`, given the result of verify_and_update_eval_shared_models. -/
def validConfig (models : Option (List (String × Shared))) (specs : List Spec) : Except Err Bool :=
  match models with
  | none => .ok false
  | some ms =>
    if ms.any (fun m => m.2.modelType ≠ "tf_generic" && m.2.modelType ≠ "tf_estimator") then .ok false
    else validSpecs (byName ms) specs

/-- extractors/tfx_bsl_predictions_extractor.py 147–162: a signature for every spec. -/
def withSignatures (models : Dict String Shared) : List Spec → Except Err (List Spec)
  | [] => .ok []
  | s :: rest =>
    if s.signatureName = "" then match sharedFor s.name models with
      | .error e => .error e
      | .ok m => match withSignatures models rest with
        | .error e => .error e
        | .ok ss => .ok (⟨s.name, defaultSignature m.graphs⟩ :: ss)
    else match withSignatures models rest with
      | .error e => .error e
      | .ok ss => .ok (s :: ss)

/-- extractors/tfx_bsl_predictions_extractor.py 46–80: names and inference specifications (path and signature), aligned. -/
def inferenceSpecs (models : Dict String Shared) : List Spec → Except Err (List (String × String × String))
  | [] => .ok []
  | s :: rest => match sharedFor s.name models with
    | .error e => .error e
    | .ok m => match inferenceSpecs models rest with
      | .error e => .error e
      | .ok is => .ok ((s.name, m.path, s.signatureName) :: is)

/-- extractors/tfx_bsl_predictions_extractor.py 88–99: inference for one example, `dict(zip(names, logs))`. -/
def logsOf (predict : String → String → String → Log) (specs : List (String × String × String)) (input : String) :
    Dict String Log :=
  specs.foldl (fun d s => Dict.set d s.1 (predict s.2.1 s.2.2 input)) []

/-- One example from splitting to inserting. (292–306) -/
def runRow (predict : String → String → String → Log) (specs : List (String × String × String))
    (outputPath : List String) (logPath : Option (List String)) (e : Ext) : Except Err (Tree (Leaf Cell)) :=
  match modelInput e with
  | .error er => .error er
  | .ok input => insertPredictions outputPath logPath e (logsOf predict specs input)

/-- The examples of all batches. (288–291) -/
def splitAll : List Ext → Except Err (List Ext)
  | [] => .ok []
  | b :: bs => match Extracts.splitExtracts false false b with
    | .error e => .error e
    | .ok rows => match splitAll bs with
      | .error e => .error e
      | .ok rest => .ok (rows ++ rest)

/-- 257–306 `RunInference` up to the rebatching (310–322, any grouping of the examples, merged by merge_extracts). -/
def runInference (predict : String → String → String → Log) (specs : List (String × String × String))
    (outputPath : List String) (logPath : Option (List String)) (batches : List Ext) :
    Except Err (List (Tree (Leaf Cell))) :=
  match splitAll batches with
  | .error e => .error e
  | .ok rows => Extracts.mapE (runRow predict specs outputPath logPath) rows

/-- extractors/tfx_bsl_predictions_extractor.py 103–176 `TfxBslPredictionsExtractor`: creating the extractor and running
it; no prediction logs are stored. -/
def extractor (predict : String → String → String → Log) (models : List (String × Shared)) (specs : List Spec)
    (outputPath : List String) (batches : List Ext) : Except Err (List (Tree (Leaf Cell))) :=
  if models.isEmpty then .error .valueError
  else match withSignatures (byName models) specs with
    | .error e => .error e
    | .ok ss => match inferenceSpecs (byName models) ss with
      | .error e => .error e
      | .ok is => runInference predict is outputPath none batches

end BulkInference
end TFMA
