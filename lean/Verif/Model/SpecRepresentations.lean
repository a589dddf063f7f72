import Verif.Py.Basic
import Mathlib.Data.Nat.Notation

/-!
# Tensor representations from input specs (utils/model_util.py 607–630) and alternatives that are validated (api/verifier_lib.py)
-/

namespace TFMA
namespace SpecRepresentations

/-! ### Tensor representations -/

/-- A type spec: sparse, ragged, or a tensor with the dimensions of its shape (`none` for a shape of unknown rank, which has no length;
an unknown dimension is `none`). (utils/model_util.py 614–620) -/
inductive TypeSpec where
  | sparse
  | ragged
  | dense (shape : Option (List (Option ℕ)))

/-- schema_pb2.TensorRepresentation, as far as it is filled in. (utils/model_util.py 615–627) -/
inductive Representation where
  | varlen (column : String)
  | ragged (path : List String)
  | dense (column : String) (dims : List ℕ)
deriving DecidableEq

/-- utils/model_util.py 620–627: the loop over the dimensions. -/
def dims : List (Option ℕ) → List ℕ → Except Err (List ℕ)
  | [], acc => .ok acc
  | none :: _, _ => .error .valueError
  | some d :: rest, acc => dims rest (acc ++ [d])

/-- utils/model_util.py 613–627: the representation of one input. -/
def representation (name : String) : TypeSpec → Except Err Representation
  | .sparse => .ok (.varlen name)
  | .ragged => .ok (.ragged [name])
  | .dense none => .error .valueError
  | .dense (some shape) =>
    match dims (if 1 < shape.length then shape.drop 1 else []) [] with
    | .error e => .error e
    | .ok l => .ok (.dense name l)

/-- utils/model_util.py 612–629: the loop over the inputs. -/
def loop : Dict String TypeSpec → Dict String Representation → Except Err (Dict String Representation)
  | [], acc => .ok acc
  | (name, spec) :: rest, acc =>
    match representation name spec with
    | .error e => .error e
    | .ok r => loop rest (Dict.set acc name r)

/-- utils/model_util.py 607–630 `input_specs_to_tensor_representations`. -/
def inputSpecsToTensorRepresentations (specs : Dict String TypeSpec) : Except Err (Dict String Representation) := loop specs []

/-! ### Alternatives -/

variable {X P A : Type}

/-- api/verifier_lib.py 48–50: the evaluation of each alternative. -/
def evaluations (extracts : X) : Dict String (X → P) → Dict String P → Dict String P
  | [], acc => acc
  | (key, alternative) :: rest, acc => evaluations extracts rest (Dict.set acc key (alternative extracts))

/-- api/verifier_lib.py 52–54: the outputs of the validators, later ones in the place of earlier ones. -/
def validations (evals : Dict String P) : List (Dict String P → Dict String A) → Dict String A → Dict String A
  | [], acc => acc
  | v :: rest, acc => validations evals rest (Dict.update acc (v evals))

/-- api/verifier_lib.py 24–55 `Validate`; alternatives and validators are arbitrary functions, and the names of stages (which Beam requires to
differ) are not modelled. -/
def validate (extracts : X) (alternatives : Dict String (X → P)) (validators : List (Dict String P → Dict String A)) : Dict String A :=
  validations (evaluations extracts alternatives []) validators []

end SpecRepresentations
end TFMA
