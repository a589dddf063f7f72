import Verif.Model.Extracts

/-!
# Tensor values and the tensors a model asks for

utils/util.py 70–280: `to_tensor_values`, `to_tensorflow_tensors` and `infer_tensor_specs`; line numbers are of that file.

Tensors of TensorFlow are taken to hold what they are made of, with the checks `tf.SparseTensor` and
`from_nested_row_splits` make. Element types are left out: a tensor that is not compatible with its spec only causes a warning
(241–249), which is not modelled. Arrays of objects and None are refused, which is what `tf.convert_to_tensor` does with None and
with arrays of arrays (arrays of texts are `nd` arrays here); such arrays have no shape here, so that they are refused for what they
hold even where `reshape` would have refused them before.
-/

namespace TFMA
namespace TensorSpecs

open Tensors Extracts VarLen

variable {α : Type}

/-- A tensor: dense, sparse or ragged. (143–148) -/
inductive Tensor (α : Type) where
  | dense (shape : List ℕ) (data : List α)
  | sparse (t : Sparse α)
  | ragged (t : Ragged α)
  deriving DecidableEq, Repr

/-- The spec of a tensor: of a dense one its shape, if the rank is known, with `none` for an unknown dimension; or of another kind.
(`tf.TensorSpec`, `tf.SparseTensorSpec` and `tf.RaggedTensorSpec` of 269–277) -/
inductive Spec where
  | dense (shape : Option (List (Option ℕ)))
  | sparse (shape : List (Option ℕ))
  | ragged (shape : List (Option ℕ))
  deriving DecidableEq, Repr

/-- 151–173 `to_tensorflow_tensor`; without row splits `from_nested_row_splits` returns the values it was given. -/
def toTensor : Leaf α → Except Err (Tensor α)
  | .ragged ⟨values, []⟩ => .ok (.dense [values.length] values)
  | .ragged t => if raggedOk t.values t.splits then .ok (.ragged t) else .error .valueError
  | .sparse t => if sparseOk t then .ok (.sparse t) else .error .valueError
  | .varlen t =>
    let s : Sparse α := ⟨t.values, t.indices.map fun p => [p.1, p.2], t.denseShape⟩
    if sparseOk s then .ok (.sparse s) else .error .valueError
  | .nd shape data => .ok (.dense shape data)
  | .none => .error .runtimeError
  | .object => .error .runtimeError

/-- 112–129 `to_tensor_value`. -/
def toValue : Tensor α → Leaf α
  | .dense shape data => .nd shape data
  | .sparse t => .sparse t
  | .ragged t => .ragged t

/-- `np.reshape` of `n` elements, `none` for -1 (233–236): at most one dimension is found out, and only if the others are not empty. -/
def reshape (n : ℕ) (dims : List (Option ℕ)) : Except Err (List ℕ) :=
  let known := (dims.filterMap id).prod
  match (dims.filter Option.isNone).length with
  | 0 => if known = n then .ok (dims.filterMap id) else .error .valueError
  | 1 => if known = 0 ∨ n % known ≠ 0 then .error .valueError else .ok (dims.map fun d => d.getD (n / known))
  | _ => .error .valueError

/-- 224–238: a dense value is given the shape of its spec but for the first dimension, if both have a shape; a value without dimensions
is left alone (its shape is false). -/
def shaped (s : Spec) : Leaf α → Except Err (Leaf α)
  | .nd (n :: shape) data => match s with
    | .dense (some dims) => match reshape (n :: shape).prod (some n :: dims.drop 1) with
      | .error e => .error e
      | .ok shape' => .ok (.nd shape' data)
    | _ => .ok (.nd (n :: shape) data)
  | v => .ok v

mutual
/-- 202–252 `to_tensors` without specs. -/
def convert : Tree (Leaf α) → Except Err (Tree (Tensor α))
  | .leaf v => match toTensor v with
    | .error e => .error e
    | .ok t => .ok (.leaf t)
  | .node f => match convertAll f with
    | .error e => .error e
    | .ok g => .ok (.node g)
/-- The loop of 215–223 over the values. -/
def convertAll : Forest (Leaf α) → Except Err (Forest (Tensor α))
  | .nil => .ok .nil
  | .cons k v rest => match convert v with
    | .error e => .error e
    | .ok t => match convertAll rest with
      | .error e => .error e
      | .ok g => .ok (.cons k t g)
end

mutual
/-- 202–252 `to_tensors` with specs; an empty dictionary of specs counts as none (215, 222). -/
def toTensors : Tree Spec → Tree (Leaf α) → Except Err (Tree (Tensor α))
  | .leaf s, .leaf v => match shaped s v with
    | .error e => .error e
    | .ok v' => match toTensor v' with
      | .error e => .error e
      | .ok t => .ok (.leaf t)
  | .node .nil, .node f => convert (.node f)
  | .node (.cons k s rest), .node f => match toTensorsAll (.cons k s rest) f with
    | .error e => .error e
    | .ok g => .ok (.node g)
  | .leaf _, .node _ => .error .valueError
  | .node _, .leaf _ => .error .valueError
/-- The loop of 215–223 over the specs. -/
def toTensorsAll : Forest Spec → Forest (Leaf α) → Except Err (Forest (Tensor α))
  | .nil, _ => .ok .nil
  | .cons k s rest, f => match f.find? k with
    | none => .error .valueError
    | some v => match toTensors s v with
      | .error e => .error e
      | .ok t => match toTensorsAll rest f with
        | .error e => .error e
        | .ok g => .ok (.cons k t g)
end

/-- 176–254 `to_tensorflow_tensors`. -/
def toTensorflow (values : Tree (Leaf α)) (specs : Option (Tree Spec)) : Except Err (Tree (Tensor α)) :=
  match specs with
  | none => convert values
  | some s => toTensors s values

mutual
/-- 132–140 `to_tensor_values`. -/
def toValues : Tree (Tensor α) → Tree (Leaf α)
  | .leaf t => .leaf (toValue t)
  | .node f => .node (toValuesAll f)
/-- The loop of 136–137. -/
def toValuesAll : Forest (Tensor α) → Forest (Leaf α)
  | .nil => .nil
  | .cons k t rest => .cons k (toValues t) (toValuesAll rest)
end

/-- 266–279: the spec of one tensor; its first dimension is left open. Of a ragged tensor the ragged dimensions are unknown. -/
def inferOne : Tensor α → Except Err Spec
  | .dense [] _ => .error .valueError
  | .dense (_ :: shape) _ => .ok (.dense (some (none :: shape.map some)))
  | .sparse t => if t.denseShape.length < 1 then .error .valueError else .ok (.sparse (none :: (t.denseShape.drop 1).map some))
  | .ragged t => .ok (.ragged (none :: t.splits.map fun _ => none))

mutual
/-- 257–280 `infer_tensor_specs`, one value of the dictionary. -/
def infer : Tree (Tensor α) → Except Err (Tree Spec)
  | .leaf t => match inferOne t with
    | .error e => .error e
    | .ok s => .ok (.leaf s)
  | .node f => match inferAll f with
    | .error e => .error e
    | .ok g => .ok (.node g)
/-- 257–280 `infer_tensor_specs`. -/
def inferAll : Forest (Tensor α) → Except Err (Forest Spec)
  | .nil => .ok .nil
  | .cons k t rest => match infer t with
    | .error e => .error e
    | .ok s => match inferAll rest with
      | .error e => .error e
      | .ok g => .ok (.cons k s g)
end

end TensorSpecs
end TFMA
