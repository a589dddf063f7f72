import Verif.Py.Basic
import Mathlib.Data.List.Basic

/-!
# What a model is called with

utils/model_util.py 356–367 and 482–531 (`get_callable`, `get_input_specs`, `get_inputs`) and 1013–1066 (the use of them in
`ModelSignaturesDoFn`).  Preprocessing functions ("name@feature", 1022–1042) are added in
`Model/PreprocessingNames`.
-/

namespace TFMA
namespace ModelInputs

variable {V : Type}

/-- Input names with whether the type of the input is string; the other properties of a type are not looked at.
(utils/model_util.py 633–706) -/
abbrev Specs := Dict String Bool

/-- utils/model_util.py 639–643: `input_name[: -len(KERAS_INPUT_SUFFIX)]` if the name ends with "_input". -/
def stripInput (name : String) : Option String :=
  let cs := name.toList
  if cs.drop (cs.length - 6) = "_input".toList then some (String.ofList (cs.take (cs.length - 6))) else none

/-- utils/model_util.py 633–646 `find_input_name_in_features`. -/
def findInputName (features : Dict String V) (name : String) : Option String :=
  if Dict.has features name then some name
  else match stripInput name with
    | none => none
    | some base => if Dict.has features base then some base else none

/-- utils/model_util.py 665–672: the loop of `filter_by_input_names`. -/
def filterLoop (features : Dict String V) : List String → Dict String V → Option (Dict String V)
  | [], result => some result
  | name :: names, result => match findInputName features name with
    | none => none
    | some k => match Dict.get? features k with
      | none => none
      | some v => filterLoop features names (Dict.set result name v)

/-- utils/model_util.py 647–672 `filter_by_input_names`. -/
def filterByInputNames (features : Dict String V) (names : List String) : Option (Dict String V) :=
  if names = [] then none else filterLoop features names []

/-- utils/model_util.py 692–695: a single string input of which there is no feature. -/
def looksSerialized (features : Dict String V) : Specs → Bool
  | [(name, true)] => (findInputName features name).isNone
  | _ => false

/-- utils/model_util.py 675–706 `get_inputs`; the conversion to tensors is not modelled. -/
def getInputs (features : Dict String V) (specs : Specs) : Option (Dict String V) :=
  if looksSerialized features specs then none
  else match filterByInputNames features (Dict.keys specs) with
    | none => none
    | some [] => none
    | some d => some d

/-- A loaded model. (utils/model_util.py 467–604) -/
structure Loaded where
  /-- the inputs if the model itself is callable (`is_callable_fn`) -/
  own : Option Specs
  /-- `model.signatures`, if there is such an attribute; with the inputs if they are given as a dict (582–591) -/
  signatures : Option (Dict String (Option Specs))
  /-- attributes that are callable functions -/
  attrs : Dict String Specs

/-- What is called: the model itself, a signature or an attribute of the model. (utils/model_util.py 512–531) -/
inductive Target where
  | whole
  | signature (name : String)
  | attribute (name : String)
deriving DecidableEq

/-- utils/model_util.py 356–367 `get_default_signature_name_from_model`. -/
def defaultSignature (m : Loaded) : String :=
  match m.signatures with
  | none => "serving_default"
  | some sigs => if Dict.has sigs "predict" then "predict" else "serving_default"

/-- utils/model_util.py 520–531, for a name. -/
def callableNamed (m : Loaded) (name : String) (required : Bool) : Except Err (Option Target) :=
  match m.signatures with
  | none => .error .attributeError
  | some sigs => if Dict.has sigs name then .ok (some (.signature name))
    else if Dict.has m.attrs name then .ok (some (.attribute name))
    else if required then .error .valueError else .ok none

/-- utils/model_util.py 482–531 `get_callable`; the empty name stands for no name. -/
def getCallable (m : Loaded) (name : String) (required : Bool) : Except Err (Option Target) :=
  if m.signatures.isNone ∧ m.own.isNone then .ok none
  else if name = "" then
    if m.own.isSome then .ok (some .whole) else callableNamed m (defaultSignature m) required
  else callableNamed m name required

/-- utils/model_util.py 582–604, for a name. -/
def specsNamed (m : Loaded) (name : String) (required : Bool) : Except Err (Option Specs) :=
  match m.signatures with
  | none => .error .attributeError
  | some sigs => match Dict.get? sigs name with
    | some s => .ok s
    | none => match Dict.get? m.attrs name with
      | some s => .ok (some s)
      | none => if required then .error .valueError else .ok none

/-- utils/model_util.py 534–604 `get_input_specs`. -/
def getInputSpecs (m : Loaded) (name : String) (required : Bool) : Except Err (Option Specs) :=
  if m.signatures.isNone ∧ m.own.isNone then .ok none
  else if name = "" then match m.own with
    | some s => .ok (some s)
    | none => specsNamed m (defaultSignature m) required
  else specsNamed m name required

/-- What is passed: features by the name of the input, or the serialized examples. (utils/model_util.py 1044–1053) -/
inductive Fed (V : Type) where
  | named (inputs : Dict String V)
  | serialized

/-- utils/model_util.py 1044–1050: `inputs`; none if there are none yet. -/
def tryInputs (features : Dict String V) (specs : Option Specs) : Option (Dict String V) :=
  match specs with
  | none => none
  | some [] => none
  | some s => getInputs features s

/-- utils/model_util.py 1044–1066: what is called with what for one signature name; none if nothing is called. -/
def call (m : Loaded) (features : Dict String V) (name : String) (required : Bool) :
    Except Err (Option (Target × Fed V)) :=
  match getInputSpecs m name required with
  | .error e => .error e
  | .ok specs =>
    match tryInputs features specs with
    | some d => match getCallable m name required with
      | .error e => .error e
      | .ok none => if required then .error .valueError else .ok none
      | .ok (some t) => .ok (some (t, .named d))
    | none => match getCallable m (if name = "" then defaultSignature m else name) required with
      | .error e => .error e
      | .ok none => if required then .error .valueError else .ok none
      | .ok (some t) => .ok (some (t, .serialized))

end ModelInputs
end TFMA
