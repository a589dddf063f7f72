import Verif.Py.Tree
import Verif.Model.TensorSpecs

/-!
# The outputs of models

tensorflow_model_analysis/utils/model_util.py 430–464, 982–1097: what the signatures of the loaded models give is made dense, checked
against the batch size, collected by model and stored. What a signature is called with is in `ModelInputs`; here a call is a function
of the model and the signature. A dense array is its shape with its values in row-major order. `_maybe_expand_dims` (422–427) is left
out: `_check_shape` has refused every array it would change.
-/

namespace TFMA
namespace ModelOutputs

open Tensors TensorSpecs

variable {α : Type}

/-- A dense array: shape and values. -/
abbrev Arr (α : Type) := List ℕ × List α

/-- Position of an index among the values of a dense array. (row-major order of numpy) -/
def flat : List ℕ → List ℕ → ℕ
  | _ :: ds, i :: is => i * ds.prod + flat ds is
  | _, _ => 0

/-- An index is within a shape. (the check of `tf.sparse.to_dense`, 433) -/
def within : List ℕ → List ℕ → Bool
  | [], [] => true
  | d :: ds, i :: is => decide (i < d) && within ds is
  | _, _ => false

/-- The indices come in strictly increasing row-major order. (`validate_indices` of `tf.sparse.to_dense`, 433) -/
def increasing : List (List ℕ) → Bool
  | a :: b :: rest => lexLe a b && decide (a ≠ b) && increasing (b :: rest)
  | _ => true

/-- Writes the entries of a sparse tensor into an array. (433) -/
def scatter (shape : List ℕ) : List (List ℕ × α) → List α → List α
  | [], data => data
  | e :: es, data => scatter shape es (data.set (flat shape e.1) e.2)

/-- The items of a ragged dimension, row by row. (435) -/
def groups {β : Type} (s : List ℕ) (items : List β) : List (List β) :=
  (s.zip s.tail).map fun p => (items.drop p.1).take (p.2 - p.1)

/-- Length of the longest row. (435) -/
def longest {β : Type} (gs : List (List β)) : ℕ := gs.foldr (fun g n => max g.length n) 0

/-- A row of items of `w` values each, with zeros after it up to `h` items. (435) -/
def padRow (zero : α) (h w : ℕ) (g : List (List α)) : List α :=
  g.flatten ++ List.replicate ((h - g.length) * w) zero

/-- `RaggedTensor.to_tensor` (435): the shape of an item of the dimension the row splits describe, and the items. -/
def densify (zero : α) (values : List α) : List (List ℕ) → List ℕ × List (List α)
  | [] => ([], values.map fun v => [v])
  | s :: rest =>
    let r := densify zero values rest
    let gs := groups s r.2
    (longest gs :: r.1, gs.map (padRow zero (longest gs) r.1.prod))

/-- utils/model_util.py 430–437 `_to_dense`; `zero` is the default value of the dtype; errors of TensorFlow are `runtimeError`s. -/
def toDense (zero : α) : Tensor α → Except Err (Arr α)
  | .dense shape data => .ok (shape, data)
  | .sparse t =>
    if t.indices.all (within t.denseShape) && increasing t.indices then
      .ok (t.denseShape, scatter t.denseShape (t.indices.zip t.values) (List.replicate t.denseShape.prod zero))
    else .error .runtimeError
  | .ragged t =>
    let r := densify zero t.values t.splits
    .ok (r.2.length :: r.1, r.2.flatten)

/-- utils/model_util.py 440–447 `_check_shape`: `shape[0]` fails for a scalar. -/
def checkFirst (n : ℕ) (a : Arr α) : Except Err Unit :=
  match a.1 with
  | [] => .error .indexError
  | m :: _ => if m ≠ n then .error .valueError else .ok ()

/-- What a signature returns: a tensor or a dictionary of tensors. (452, 456) -/
inductive Outs (α : Type) where
  | one (t : Tensor α)
  | named (d : Dict String (Tensor α))

/-- One output. (454–455, 457–458) -/
def denseOne (zero : α) (n : ℕ) (t : Tensor α) : Except Err (Arr α) :=
  match toDense zero t with
  | .error e => .error e
  | .ok a => match checkFirst n a with
    | .error e => .error e
    | .ok () => .ok a

/-- The loop of utils/model_util.py 453–455. -/
def denseNamed (zero : α) (n : ℕ) : Dict String (Tensor α) → Except Err (Dict String (Arr α))
  | [] => .ok []
  | (k, t) :: rest => match denseOne zero n t with
    | .error e => .error e
    | .ok a => match denseNamed zero n rest with
      | .error e => .error e
      | .ok d => .ok ((k, a) :: d)

/-- utils/model_util.py 449–464 `_to_dense_outputs`. -/
def toDenseOutputs (zero : α) (n : ℕ) (signature : String) : Outs α → Except Err (Dict String (Arr α))
  | .named d => denseNamed zero n d
  | .one t => match denseOne zero n t with
    | .error e => .error e
    | .ok a => .ok [(signature, a)]

/-- The call of a signature of a model (1017–1082): the name the outputs are stored under and what it returns, or `none` if there is no
such signature. Arguments: model, signature name, whether it is required. -/
abbrev Call (M α : Type) := M → String → Bool → Except Err (Option (String × Outs α))

variable {M : Type}

/-- The loop of utils/model_util.py 1014–1085 over the signatures of one model; the entry of the `defaultdict` begins with the first
update. -/
def signatureLoop (zero : α) (n : ℕ) (call : Call M α) (m : M) (required : Bool) :
    List String → Option (Dict String (Arr α)) → Except Err (Option (Dict String (Arr α)))
  | [], acc => .ok acc
  | s :: rest, acc => match call m s required with
    | .error e => .error e
    | .ok none => if !required then signatureLoop zero n call m required rest acc else .error .valueError
    | .ok (some (name, outs)) => match toDenseOutputs zero n name outs with
      | .error e => .error e
      | .ok d => signatureLoop zero n call m required rest (some (Dict.update (acc.getD []) d))

/-- The loop of utils/model_util.py 1012–1085 over the loaded models. `signatures[model_name] or default_signatures` (1015). -/
def modelLoop (zero : α) (n : ℕ) (call : Call M α) (signatures : Dict String (List String)) (defaults : List String) :
    Dict String M → Except Err (Dict String (Dict String (Arr α)))
  | [] => .ok []
  | (name, m) :: rest => match signatures.get? name with
    | none => .error .keyError
    | some own =>
      match signatureLoop zero n call m (!own.isEmpty) (if own.isEmpty then defaults else own) none with
      | .error e => .error e
      | .ok d => match modelLoop zero n call signatures defaults rest with
        | .error e => .error e
        | .ok per => match d with
          | none => .ok per
          | some d => .ok ((name, d) :: per)

/-- A dictionary as a level of nested dictionaries. -/
def forestOf : List (String × Tree (Arr α)) → Forest (Arr α)
  | [] => .nil
  | (k, t) :: rest => .cons k t (forestOf rest)

/-- utils/model_util.py 1087–1089: a single output of a model is stored without its name unless dictionaries are preferred. -/
def squeeze (preferDict : Bool) (d : Dict String (Arr α)) : Tree (Arr α) :=
  match d with
  | [(k, a)] => if !preferDict then .leaf a else .node (forestOf [(k, .leaf a)])
  | d => .node (forestOf (d.map fun p => (p.1, .leaf p.2)))

/-- utils/model_util.py 1087–1092: what the outputs of a single model are stored as does not have the name of the model. -/
def layout (preferDict : Bool) (per : Dict String (Dict String (Arr α))) : Tree (Arr α) :=
  match per with
  | [(_, d)] => squeeze preferDict d
  | per => .node (forestOf (per.map fun p => (p.1, squeeze preferDict p.2)))

/-- utils/model_util.py 999–1092, up to the storing of the result (1094–1097). -/
def process (zero : α) (n : ℕ) (call : Call M α) (signatures : Dict String (List String)) (defaults : List String)
    (preferDict : Bool) (loaded : Dict String M) : Except Err (Tree (Arr α)) :=
  if loaded.isEmpty then .error .valueError
  else match modelLoop zero n call signatures defaults loaded with
    | .error e => .error e
    | .ok per => .ok (layout preferDict per)

/-- The loop of utils/model_util.py 986–997 for the model names `specs`, with `several` for `len(self._model_specs) > 1`. -/
def setupLoop (several : Bool) (loaded : Dict String M) : List String → Dict String M → Except Err (Dict String M)
  | [], acc => .ok acc
  | spec :: rest, acc =>
    let name := if several then spec else ""
    if loaded.isEmpty then .error .valueError
    else match loaded.get? name with
      | none => .error .valueError
      | some m => setupLoop several loaded rest (acc.set name m)

/-- utils/model_util.py 982–997 `setup`: the loaded models that the model specs name. -/
def setup (specs : List String) (loaded : Dict String M) : Except Err (Dict String M) :=
  setupLoop (decide (specs.length > 1)) loaded specs []

end ModelOutputs
end TFMA
