import Verif.Model.ModelInputs
import Verif.Model.ModelOutputs

/-!
# Preprocessing functions of the library, named "function@feature"

utils/model_util.py 108–117 (`get_preprocessing_signature`) and 1022–1085 (the use of it in `ModelSignaturesDoFn`), on top of
`Model/ModelInputs` (names without `@`) and `Model/ModelOutputs` (what is stored).
-/

namespace TFMA
namespace PreprocessingNames

open ModelInputs ModelOutputs

variable {V α : Type}

/-- `signature_name.split("@")` on characters. (utils/model_util.py 110) -/
def splitChars : List Char → List Char × List (List Char)
  | [] => ([], [])
  | c :: cs =>
    let (p, ps) := splitChars cs
    if c = '@' then ([], p :: ps) else (c :: p, ps)

/-- utils/model_util.py 108–117 `get_preprocessing_signature`: the name of the function and the names of its inputs. -/
def getPreprocessingSignature (name : String) : Except Err (String × List String) :=
  let (f, inputs) := splitChars name.toList
  if 1 < inputs.length then .error .notImplementedError
  else .ok (String.ofList f, inputs.map String.ofList)

/-- What `getattr(preprocessing_functions, name)` finds: a function, with whether its input is of strings, or a module of the package.
Every function of the package has an `input_signature` of one tensor (experimental/preprocessing_functions/text.py 24,
test_util.py); other attributes, such as `__doc__`, are not modelled. (utils/model_util.py 1027–1033) -/
inductive Attr where
  | function (string : Bool)
  | package

/-- What is called: a function of the library, or something of the model. (utils/model_util.py 1027, 1058) -/
inductive Callee where
  | library (name : String)
  | model (t : Target)
deriving DecidableEq

/-- utils/model_util.py 1044–1085 for a name without `@` (or one that is not in the library): what `ModelInputs.call` says, and the
name the outputs are stored under, which is the default signature if there is no name and examples are passed (1054–1056). -/
def plain (m : Loaded) (features : Dict String V) (name : String) (required : Bool) :
    Except Err (Option (Callee × Fed V × String)) :=
  match call m features name required with
  | .error e => .error e
  | .ok none => .ok none
  | .ok (some (t, .named d)) => .ok (some (.model t, .named d, name))
  | .ok (some (t, .serialized)) =>
    .ok (some (.model t, .serialized, if name = "" then defaultSignature m else name))

/-- utils/model_util.py 1017–1085: what is called with what, and the name the outputs are stored under.  A module found in the
package stays in `signature` when it turns out to have no `input_signature` (1027–1042); it cannot be called, which is a
`ValueError` (1077–1082). -/
def resolve (lib : Dict String Attr) (m : Loaded) (features : Dict String V) (name : String) (required : Bool) :
    Except Err (Option (Callee × Fed V × String)) :=
  if '@' ∈ name.toList then
    match getPreprocessingSignature name with
    | .error e => .error e
    | .ok (f, inputs) => match Dict.get? lib f with
      | none => plain m features f required
      | some .package => match getInputSpecs m f required with
        | .error e => .error e
        | .ok _ => .error .valueError
      | some (.function string) => match getInputs features (inputs.map (fun x => (x, string))) with
        | some d => .ok (some (.library f, .named d, f))
        | none => .ok (some (.library f, .serialized, f))
  else plain m features name required

/-- utils/model_util.py 1067–1084: the call and its outputs with the name they are stored under; `run` is what the functions compute
(calls that fail are not modelled). -/
def callOf (lib : Dict String Attr) (features : Dict String V) (run : Callee → Fed V → Outs α) : Call Loaded α :=
  fun m name required => match resolve lib m features name required with
    | .error e => .error e
    | .ok none => .ok none
    | .ok (some (c, fed, stored)) => .ok (some (stored, run c fed))

end PreprocessingNames
end TFMA
