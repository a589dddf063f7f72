import Verif.Py.Tree
import Verif.Model.ModelInputs

/-!
# Counterfactual predictions

extractors/counterfactual_predictions_extractor.py (line numbers without a file) and the predictions extractor that it uses
(extractors/predictions_extractor.py, utils/model_util.py 982–1097).  Serialized examples are their maps of features: parsing
and serializing are inverse to each other.  A batch is never split after a failure (that is the subject of C99).
-/

namespace TFMA
namespace Counterfactual

open ModelInputs

variable {F V O : Type}

/-- The map of features of a tf.train.Example. (233–238) -/
abbrev Example (F : Type) := Dict String F

/-- The extracts used here; `saved` is the entry "non_counterfactual_input". (32, 229–230) -/
structure Batch (F V O : Type) where
  input : List (Example F)
  saved : Option (List (Example F)) := none
  features : Dict String V
  predictions : Option (Tree O)

/-- A model of the evaluation: `output` is what calling it gives. (api/types.py 254–330) -/
structure CModel (F V O : Type) where
  name : String
  /-- the type is one of `_SUPPORTED_MODEL_TYPES` (28) -/
  supported : Bool
  loaded : Loaded
  output : Target → Dict String V ⊕ List (Example F) → O

/-- The fields of a model spec used here. (proto/config.proto) -/
structure Spec where
  name : String
  signature : String
deriving DecidableEq

/-- Reading an entry of a protobuf map of messages adds it, empty, if it is missing. (235–237) -/
def touch (empty : F) (ex : Example F) (k : String) : Example F :=
  if Dict.has ex k then ex else Dict.set ex k empty

/-- 234–237: one entry of the config. -/
def copyFeature (empty : F) (ex : Example F) (p : String × String) : Example F :=
  let ex := touch empty (touch empty ex p.1) p.2
  Dict.set ex p.1 ((Dict.get? ex p.2).getD empty)

/-- 233–238: a counterfactual example; the config maps destinations to sources. -/
def cfExample (empty : F) (config : Dict String String) (ex : Example F) : Example F :=
  config.foldl (copyFeature empty) ex

/-- 208–241 `_cf_preprocess`. -/
def preprocess (empty : F) (config : Dict String String) (b : Batch F V O) : Batch F V O :=
  { b with saved := some b.input, input := b.input.map (cfExample empty config) }

/-- 244–264 `_cf_postprocess`. -/
def postprocess (b : Batch F V O) : Except Err (Batch F V O) :=
  match b.saved with
  | none => .error .keyError
  | some i => .ok { b with input := i, saved := none }

/-- utils/model_util.py 247–266 `verify_and_update_eval_shared_models` for a list. -/
def normalize (ms : List (CModel F V O)) : Except Err (List (CModel F V O)) :=
  if ms.length > 1 then if ms.any (fun m => m.name == "") then .error .valueError else .ok ms
  else .ok (ms.map fun m => { m with name := "" })

/-- 124–190 `_validate_and_update_models_and_configs` for a list of models. -/
def validate (ms : List (CModel F V O)) (configs : Dict String (Dict String String)) :
    Except Err (List (CModel F V O) × Dict String (Dict String String)) :=
  match normalize ms with
  | .error e => .error e
  | .ok ms =>
    if ms = [] then .error .valueError
    else if ms.any (fun m => !m.supported) then .error .valueError
    else match configs with
      | [] => .error .valueError
      | (_, c) :: rest =>
        if ms.length = 1 then
          if rest = [] then .ok (ms, [("", c)]) else .error .valueError
        else if (Dict.keys configs).all (fun n => ms.any (fun m => m.name == n)) then .ok (ms, configs)
        else .error .valueError

/-- 193–205 `_filter_model_specs`. -/
def filterSpecs (specs : List Spec) (ms : List (CModel F V O)) : List Spec :=
  specs.filter fun s => ms.any fun m => m.name == s.name

/-- What is passed to the callable. (utils/model_util.py 1050–1076) -/
def given (f : Fed V) (input : List (Example F)) : Dict String V ⊕ List (Example F) := match f with
  | .named d => .inl d
  | .serialized => .inr input

/-- utils/model_util.py 1013–1085 for one model and one signature name. -/
def predict (m : CModel F V O) (signature : String) (b : Batch F V O) : Except Err O :=
  match call m.loaded b.features signature true with
  | .error e => .error e
  | .ok none => .error .valueError
  | .ok (some (t, f)) => .ok (m.output t (given f b.input))

/-- The name under which a spec is used. (extractors/predictions_extractor.py 133–135, utils/model_util.py 986–996) -/
def usedName (specs : List Spec) (s : Spec) : String := if specs.length > 1 then s.name else ""

/-- utils/model_util.py 982–997: the models of the specs, with the signature of each
(extractors/predictions_extractor.py 132–135). -/
def setup (specs : List Spec) (byName : Dict String (CModel F V O)) :
    List Spec → Dict String (CModel F V O × String) → Except Err (Dict String (CModel F V O × String))
  | [], acc => .ok acc
  | s :: rest, acc => match Dict.get? byName (usedName specs s) with
    | none => .error .valueError
    | some m => setup specs byName rest (Dict.set acc (usedName specs s) (m, s.signature))

/-- utils/model_util.py 1010–1085: the predictions of all models. -/
def outputs (b : Batch F V O) : Dict String (CModel F V O × String) → Except Err (List (String × O))
  | [] => .ok []
  | (name, m, sig) :: rest => match predict m sig b with
    | .error e => .error e
    | .ok o => match outputs b rest with
      | .error e => .error e
      | .ok os => .ok ((name, o) :: os)

/-- A dictionary of predictions. (utils/model_util.py 1087–1092) -/
def forestOf : List (String × O) → Forest O
  | [] => .nil
  | (k, o) :: rest => .cons k (.leaf o) (forestOf rest)

/-- utils/model_util.py 1090–1092: one model only is stored without its name. -/
def stored : List (String × O) → Tree O
  | [(_, o)] => .leaf o
  | os => .node (forestOf os)

/-- utils/util.py 561–600 `copy_and_set_by_keys` with the path ("predictions",) or ("predictions", name). -/
def store (b : Batch F V O) (sub : Option String) (v : Tree O) : Except Err (Batch F V O) :=
  match sub with
  | none => .ok { b with predictions := some v }
  | some name => match b.predictions with
    | none => .ok { b with predictions := some (.node (.cons name v .nil)) }
    | some (.node f) => .ok { b with predictions := some (.node (f.set name v)) }
    | some (.leaf _) => .error .valueError

/-- extractors/predictions_extractor.py 91–145 and utils/model_util.py 982–1097. -/
def extractPredictions (specs : List Spec) (ms : List (CModel F V O)) (sub : Option String) (b : Batch F V O) :
    Except Err (Batch F V O) :=
  match normalize ms with
  | .error e => .error e
  | .ok ms =>
    if ms = [] then .error .valueError
    else match setup specs (ms.foldl (fun d m => Dict.set d m.name m) []) specs [] with
      | .error e => .error e
      | .ok loaded =>
        if loaded = [] then .error .valueError
        else match outputs b loaded with
          | .error e => .error e
          | .ok os => store b sub (stored os)

/-- 267–279 `_ExtractCounterfactualPredictions`, with 91–101. -/
def extractCf (empty : F) (specs : List Spec) (m : CModel F V O) (config : Dict String String) (b : Batch F V O) :
    Except Err (Batch F V O) :=
  match extractPredictions (filterSpecs specs [m]) [m] (some m.name) (preprocess empty config b) with
  | .error e => .error e
  | .ok b => postprocess b

/-- The config of a model; none if there is no config for it or the config is empty. (88–89) -/
def configOf (configs : Dict String (Dict String String)) (name : String) : Option (Dict String String) :=
  match Dict.get? configs name with
  | none => none
  | some [] => none
  | some c => some c

/-- 305–306: the loop over the models with a config (in a dictionary by name, 85, 99). -/
def extractAllCf (empty : F) (specs : List Spec) :
    List (CModel F V O × Dict String String) → Batch F V O → Except Err (Batch F V O)
  | [], b => .ok b
  | (m, c) :: rest, b => match extractCf empty specs m c b with
    | .error e => .error e
    | .ok b => extractAllCf empty specs rest b

/-- 102–115 and 303–304: the models without a config. -/
def extractNonCf (specs : List Spec) (ms : List (CModel F V O)) (b : Batch F V O) : Except Err (Batch F V O) :=
  match ms with
  | [] => .ok b
  | [m] => extractPredictions (filterSpecs specs [m]) [m] (some m.name) b
  | ms => extractPredictions (filterSpecs specs ms) ms none b

/-- 36–121 `CounterfactualPredictionsExtractor` and 282–307 `_ExtractPredictions` on one batch.  Model names differ (as keys of
the dictionary of 85). -/
def extractor (empty : F) (specs : List Spec) (ms : List (CModel F V O)) (configs : Dict String (Dict String String))
    (b : Batch F V O) : Except Err (Batch F V O) :=
  match validate ms configs with
  | .error e => .error e
  | .ok (ms, configs) =>
    match extractNonCf specs (ms.filter fun m => (configOf configs m.name).isNone) b with
    | .error e => .error e
    | .ok b => extractAllCf empty specs
        (ms.filterMap fun m => (configOf configs m.name).map fun c => (m, c)) b

end Counterfactual
end TFMA
