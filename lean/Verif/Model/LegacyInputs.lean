import Verif.Py.Basic

/-!
# The legacy input extractor

extractors/legacy_input_extractor.py.  Parsing the serialized example (`ExampleToNumpyDict` of TFX-BSL) is a parameter; `A` is the type of
arrays.
-/

namespace TFMA
namespace LegacyInputs

variable {A X B : Type}

/-- What `_keys_and_values` returns: the value of one feature, None, or a dictionary by output name. (legacy_input_extractor.py 70–86) -/
inductive Found (A : Type) where
  | one (a : A)
  | missing
  | outputs (d : Dict String A)
  deriving DecidableEq

/-- The fields of a ModelSpec which are read here. (legacy_input_extractor.py 117–132) -/
structure Spec where
  name : String
  labelKey : String := ""
  labelKeys : Dict String String := []
  exampleWeightKey : String := ""
  exampleWeightKeys : Dict String String := []
  predictionKey : String := ""
  predictionKeys : Dict String String := []

/-- The loop of legacy_input_extractor.py 77–81 (the keys it collects are not used by the caller). -/
def outputsLoop (features : Dict String A) : Dict String String → Dict String A → Dict String A
  | [], values => values
  | (o, k) :: ks, values => match Dict.get? features k with
    | some a => outputsLoop features ks (Dict.set values o a)
    | none => outputsLoop features ks values

/-- legacy_input_extractor.py 70–86 `_keys_and_values` applied to `key or dict(keys)`. -/
def found (features : Dict String A) (key : String) (keys : Dict String String) : Found A :=
  if key ≠ "" then match Dict.get? features key with
    | some a => .one a
    | none => .missing
  else .outputs (outputsLoop features keys [])

/-- What extracts hold under a key: one value, a dictionary by model name, or something a model name cannot be assigned in; `e` is the
exception then. (legacy_input_extractor.py 105–115) -/
inductive Slot (A : Type) where
  | single (f : Found A)
  | models (d : Dict String (Found A))
  | foreign (e : Err)
  deriving DecidableEq

/-- Extracts. -/
structure Extracts (A X B : Type) where
  input : Option B
  labels : Option (Slot A) := none
  weights : Option (Slot A) := none
  predictions : Option (Slot A) := none
  features : Option (Dict String A) := none
  rest : X

/-- The dictionary an entry can be assigned in, if it is one: by model name or by output name. (legacy_input_extractor.py 113) -/
def Slot.dict? : Slot A → Option (Dict String (Found A))
  | .models d => some d
  | .single (.outputs d) => some (d.map fun x => (x.1, .one x.2))
  | _ => none

/-- The exception of assigning an entry in something that is not a dictionary: arrays do not take names, None takes nothing.
(legacy_input_extractor.py 113) -/
def Slot.assignError : Slot A → Err
  | .foreign e => e
  | .single (.one _) => .indexError
  | _ => .typeError

/-- legacy_input_extractor.py 105–115 `add_to_extracts` for one key; `several` is `len(eval_config.model_specs) > 1`. -/
def addTo (several : Bool) (slot : Option (Slot A)) (model : String) (v : Found A) : Except Err (Option (Slot A)) :=
  if several then match slot with
    | none => .ok (some (.models [(model, v)]))
    | some s => match s.dict? with
      | some d => .ok (some (.models (Dict.set d model v)))
      | none => .error s.assignError
  else .ok (some (.single v))

/-- `if spec.key or spec.keys:` … `add_to_extracts`. (legacy_input_extractor.py 118–132) -/
def addKind (several : Bool) (features : Dict String A) (slot : Option (Slot A)) (model key : String) (keys : Dict String String) :
    Except Err (Option (Slot A)) :=
  if key ≠ "" ∨ keys ≠ [] then addTo several slot model (found features key keys) else .ok slot

/-- The loop over the model specs, legacy_input_extractor.py 117–132: labels, weights and predictions. -/
def specsLoop (several : Bool) (features : Dict String A) :
    List Spec → Option (Slot A) → Option (Slot A) → Option (Slot A) → Except Err (Option (Slot A) × Option (Slot A) × Option (Slot A))
  | [], l, w, p => .ok (l, w, p)
  | s :: ss, l, w, p => match addKind several features l s.name s.labelKey s.labelKeys with
    | .error e => .error e
    | .ok l' => match addKind several features w s.name s.exampleWeightKey s.exampleWeightKeys with
      | .error e => .error e
      | .ok w' => match addKind several features p s.name s.predictionKey s.predictionKeys with
        | .error e => .error e
        | .ok p' => specsLoop several features ss l' w' p'

/-- What is left in the incoming extracts: `copy.copy` is shallow, so a dictionary by model name is changed in place.
(legacy_input_extractor.py 103–115) -/
def leftBehind (several : Bool) (before after : Option (Slot A)) : Option (Slot A) :=
  match before.bind Slot.dict? with
  | some _ => if several then after else before
  | none => before

/-- legacy_input_extractor.py 89–134 `_ParseExample`: the result, and the incoming extracts afterwards. -/
def parseExample (parse : B → Except Err (Dict String A)) (specs : List Spec) (e : Extracts A X B) :
    Except Err (Extracts A X B × Extracts A X B) :=
  match e.input with
  | none => .error .keyError
  | some b => match parse b with
    | .error x => .error x
    | .ok features => match specsLoop (decide (1 < specs.length)) features specs e.labels e.weights e.predictions with
      | .error x => .error x
      | .ok (l, w, p) =>
        .ok ({ e with labels := l, weights := w, predictions := p, features := some features },
          { e with labels := leftBehind (decide (1 < specs.length)) e.labels l
                   weights := leftBehind (decide (1 < specs.length)) e.weights w
                   predictions := leftBehind (decide (1 < specs.length)) e.predictions p })

end LegacyInputs
end TFMA
