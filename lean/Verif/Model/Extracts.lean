import Verif.Model.SparseRagged
import Verif.Model.VarLen
import Verif.Py.Tree

/-!
# Batched extracts: split_extracts and merge_extracts (utils/util.py 877–1117)

A leaf of an extracts dictionary is None, a numpy array (shape and elements in row-major order; dtypes are
dropped), a VarLenTensorValue, a SparseTensorValue or a RaggedTensorValue (the last two are split and merged in
Model/SparseRagged.lean).
-/

namespace TFMA
namespace Extracts

open VarLen Tensors

/-- A leaf value.  `object` stands for the dtype=object array numpy builds from a mixture of None and arrays;
its contents are not modelled. (api/types.py 217–240 and utils/util.py 877–1117) -/
inductive Leaf (α : Type) where
  | none
  | nd (shape : List ℕ) (data : List α)
  | varlen (t : VarLenTensorValue α)
  | sparse (t : Sparse α)
  | ragged (t : Ragged α)
  | object
  deriving DecidableEq, Repr

variable {α : Type}

/-- number of elements of an array of the given shape. (numpy `size`) -/
def numel : List ℕ → ℕ
  | [] => 1
  | n :: s => n * numel s

/-- the `n` consecutive blocks of `m` elements. (iteration over the first dimension, utils/util.py 1049–1095) -/
def chunks (m : ℕ) : ℕ → List α → List (List α)
  | 0, _ => []
  | n + 1, l => l.take m :: chunks m n (l.drop m)

/-- The values stored for one leaf, one per row (utils/util.py 1049–1095; row `i` of the result is what the
loop body computes for `i`).  The rows of an array of shape `(n,)` become arrays of shape `(1,)` or `()`
depending on expand_zero_dims; `value.size and value.shape == (0,)` can never hold, so it adds nothing;
keep_batch_dim adds a leading dimension to arrays.  A ragged tensor without row splits is an ordinary tensor, and the
rows of one with a single ragged dimension are arrays. -/
def rowsOf (keepBatchDim expandZeroDims : Bool) : Leaf α → Except Err (List (Leaf α))
  | .none => .ok []
  | .object => .error .typeError
  | .varlen t => match denseRows t with
    | .error e => .error e
    | .ok rows => .ok (rows.map fun r =>
        .nd (if keepBatchDim then [1, r.length] else [r.length]) r)
  | .sparse t => match splitSparse t with
    | .error e => .error e
    | .ok rows => .ok (rows.map .sparse)
  | .ragged t =>
    if !raggedOk t.values t.splits then .error .runtimeError
    else match t.splits with
      | [] => .ok (t.values.map fun v =>
          let shape := if expandZeroDims then [1] else []
          .nd (if keepBatchDim then 1 :: shape else shape) [v])
      | [s] => .ok ((raggedRows t s []).map fun r =>
          .nd (if keepBatchDim then [1, r.values.length] else [r.values.length]) r.values)
      | s :: s' :: rest => .ok ((raggedRows t s (s' :: rest)).map .ragged)
  | .nd [] _ => .error .typeError
  | .nd (n :: s) data => .ok ((chunks (numel s) n data).map fun r =>
      let shape := if s = [] then (if expandZeroDims then [1] else []) else s
      .nd (if keepBatchDim then 1 :: shape else shape) r)

/-- Navigation and assignment of utils/util.py 1064–1070 and 1095: missing dictionaries are created; if a key
on the way holds a leaf python raises TypeError. -/
def setPath : Path → Leaf α → Forest (Leaf α) → Except Err (Forest (Leaf α))
  | [], _, _ => .error .indexError
  | [k], v, f => .ok (f.set k (.leaf v))
  | k :: k' :: p, v, f =>
    match f.find? k with
    | none => match setPath (k' :: p) v .nil with
      | .error e => .error e
      | .ok g => .ok (f.set k (.node g))
    | some (.node sub) => match setPath (k' :: p) v sub with
      | .error e => .error e
      | .ok g => .ok (f.set k (.node g))
    | some (.leaf _) => .error .typeError

/-- The loop of utils/util.py 1061–1095 over the rows of one leaf. -/
def putRows (keys : Path) : List (Forest (Leaf α)) → List (Leaf α) → Except Err (List (Forest (Leaf α)))
  | rs, [] => .ok rs
  | [], c :: cs => match setPath keys c .nil with
    | .error e => .error e
    | .ok f => match putRows keys [] cs with
      | .error e => .error e
      | .ok rs => .ok (f :: rs)
  | r :: rs, c :: cs => match setPath keys c r with
    | .error e => .error e
    | .ok f => match putRows keys rs cs with
      | .error e => .error e
      | .ok rs' => .ok (f :: rs')

mutual
/-- the calls of add_to_results made by `visit` (utils/util.py 1097–1104), in order. -/
def treeLeaves (keys : Path) : Tree (Leaf α) → List (Path × Leaf α)
  | .leaf v => [(keys, v)]
  | .node f => forestLeaves keys f
/-- `visit(subtree, keys)`. (utils/util.py 1061–1095) -/
def forestLeaves (keys : Path) : Forest (Leaf α) → List (Path × Leaf α)
  | .nil => []
  | .cons k t rest => treeLeaves (keys ++ [k]) t ++ forestLeaves keys rest
end

/-- all calls of add_to_results (utils/util.py 1049–1095) that are not about None, threaded through `results`. -/
def addAll (keep expand : Bool) : List (Forest (Leaf α)) → List (Path × Leaf α) →
    Except Err (List (Forest (Leaf α)))
  | rs, [] => .ok rs
  | rs, (keys, v) :: rest =>
    match rowsOf keep expand v with
    | .error e => .error e
    | .ok cells => match putRows keys rs cells with
      | .error e => .error e
      | .ok rs' => addAll keep expand rs' rest

/-- utils/util.py 1106–1115: the None leaves are added to one result. -/
def addEmpty : List Path → Forest (Leaf α) → Except Err (Forest (Leaf α))
  | [], f => .ok f
  | keys :: rest, f => match setPath keys .none f with
    | .error e => .error e
    | .ok f' => addEmpty rest f'

/-- apply a fallible function to every element. (python loop) -/
def mapE {β γ : Type} (g : β → Except Err γ) : List β → Except Err (List γ)
  | [] => .ok []
  | x :: xs => match g x with
    | .error e => .error e
    | .ok y => match mapE g xs with
      | .error e => .error e
      | .ok ys => .ok (y :: ys)

/-- is the leaf None. (utils/util.py 1049–1095) -/
def isNone : Leaf α → Bool
  | .none => true
  | _ => false

/-- utils/util.py 1019–1117 `split_extracts`. -/
def splitExtracts (keep expand : Bool) (extracts : Forest (Leaf α)) : Except Err (List (Forest (Leaf α))) :=
  let ls := forestLeaves [] extracts
  match addAll keep expand [] ls with
  | .error e => .error e
  | .ok rs => mapE (addEmpty ((ls.filter fun l => isNone l.2).map Prod.fst)) rs

/-! ### merge_extracts -/

mutual
/-- `merge_with_lists(target, index, key, value, num_extracts)` (utils/util.py 901–927) for one key; returns the
updated `target`.  If a key holds a dictionary in one extract and a leaf in another the code would mix them up
(TypeError here). -/
def mergeTree (n index : ℕ) (target : Forest (List (Leaf α))) (key : String) :
    Tree (Leaf α) → Except Err (Forest (List (Leaf α)))
  | .node f =>
    match target.find? key with
    | none => match mergeItems n index .nil f with
      | .error e => .error e
      | .ok g => .ok (target.set key (.node g))
    | some (.node sub) => match mergeItems n index sub f with
      | .error e => .error e
      | .ok g => .ok (target.set key (.node g))
    | some (.leaf _) => .error .typeError
  | .leaf v =>
    match target.find? key with
    | none => .ok (target.set key (.leaf ((List.replicate n (Leaf.nd [0] [])).set index v)))
    | some (.leaf l) => .ok (target.set key (.leaf (l.set index v)))
    | some (.node _) => .error .typeError
/-- the loop over the items of one dictionary. (utils/util.py 901–927) -/
def mergeItems (n index : ℕ) (target : Forest (List (Leaf α))) :
    Forest (Leaf α) → Except Err (Forest (List (Leaf α)))
  | .nil => .ok target
  | .cons k t rest => match mergeTree n index target k t with
    | .error e => .error e
    | .ok target' => mergeItems n index target' rest
end

/-- the loop over the extracts (utils/util.py 985–990). -/
def mergeAll (n : ℕ) : ℕ → Forest (List (Leaf α)) → List (Forest (Leaf α)) →
    Except Err (Forest (List (Leaf α)))
  | _, target, [] => .ok target
  | i, target, x :: xs => match mergeItems n i target x with
    | .error e => .error e
    | .ok target' => mergeAll n (i + 1) target' xs

/-- shape and elements if the leaf is a numpy array. (utils/util.py 943–983) -/
def asNd? : Leaf α → Option (List ℕ × List α)
  | .nd s d => some (s, d)
  | _ => none

/-- all elements are numpy arrays. (utils/util.py 943–983) -/
def allNd? : List (Leaf α) → Option (List (List ℕ × List α))
  | [] => some []
  | x :: xs => match asNd? x, allNd? xs with
    | some a, some as => some (a :: as)
    | _, _ => none

/-- `t.squeeze()`: the dimensions of size 1 are dropped. (utils/util.py 965–983) -/
def squeezeRow (a : List ℕ × List α) : Row α := ⟨(a.1.filter (· ≠ 1)).length, a.2⟩

/-- The leaf case of `merge_lists` (utils/util.py 961–983) for a non-empty list that is not merged by TensorFlow.
`np.array(target)` of arrays of equal shape stacks them; of None or sparse tensors and arrays it makes an object array. -/
def mergePlain (squeeze : Bool) (target : List (Leaf α)) : Except Err (Leaf α) :=
  match allNd? target with
  | some [] => .ok (.nd [0] [])
  | some ((s, d) :: rest) =>
    if rest.any (fun a => a.1 ≠ s) then
      match fromDenseRows (((s, d) :: rest).map squeezeRow) with
      | .error e => .error e
      | .ok t => .ok (.varlen t)
    else
      let shape := (rest.length + 1) :: s
      let data := (((s, d) :: rest).map Prod.snd).flatten
      if squeeze && decide (s = [1]) then .ok (.nd [rest.length + 1] data) else .ok (.nd shape data)
  | none =>
    if target.all isNone then .ok .none
    else if target.any (fun v => match v with | .varlen _ => true | .object => true | _ => false) then
      .error .runtimeError
    else .ok .object

/-- What `to_tensorflow_tensor` makes a sparse tensor of (utils/util.py 158–166); `tf.sparse.expand_dims` refuses
everything else. -/
def asSparse? : Leaf α → Option (Sparse α)
  | .sparse t => some t
  | .varlen t => some ⟨t.values, t.indices.map fun p => [p.1, p.2], t.denseShape⟩
  | _ => none

/-- the RaggedTensorValue a leaf is. (utils/util.py 953–955) -/
def asRagged? : Leaf α → Option (Ragged α)
  | .ragged t => some t
  | _ => none

/-- all elements of a list, if `f` is defined for them. (python loop) -/
def allSome {β γ : Type} (f : β → Option γ) : List β → Option (List γ)
  | [] => some []
  | x :: xs => match f x, allSome f xs with
    | some a, some as => some (a :: as)
    | _, _ => none

/-- The leaf case of `merge_lists` (utils/util.py 943–983) for a non-empty list.  Whether the values are merged as sparse
tensors is decided by the first one alone (945).  An array next to ragged values is refused here; TensorFlow would
accept one with the same number of dimensions. -/
def mergeLeaf (squeeze : Bool) (target : List (Leaf α)) : Except Err (Leaf α) :=
  if (target.head?.any fun v => match v with | .sparse _ => true | _ => false) then
    match allSome asSparse? target with
    | none => .error .typeError
    | some ts => match mergeSparse ts with
      | .error e => .error e
      | .ok t => .ok (.sparse t)
  else if target.any fun v => (asRagged? v).isSome then
    match allSome asRagged? target with
    | none => .error .valueError
    | some ts => match mergeRagged ts with
      | .error e => .error e
      | .ok t => .ok (.ragged t)
  else mergePlain squeeze target

mutual
/-- `merge_lists` (utils/util.py 929–983); failures are reported as RuntimeError. -/
def mergeListsTree (squeeze : Bool) : Tree (List (Leaf α)) → Except Err (Tree (Leaf α))
  | .leaf l => match mergeLeaf squeeze l with
    | .error _ => .error .runtimeError
    | .ok v => .ok (.leaf v)
  | .node f => match mergeListsItems squeeze f with
    | .error e => .error e
    | .ok g => .ok (.node g)
/-- one dictionary level. (utils/util.py 929–942) -/
def mergeListsItems (squeeze : Bool) : Forest (List (Leaf α)) → Except Err (Forest (Leaf α))
  | .nil => .ok .nil
  | .cons k t rest => match mergeListsTree squeeze t with
    | .error e => .error e
    | .ok t' => match mergeListsItems squeeze rest with
      | .error e => .error e
      | .ok rest' => .ok (.cons k t' rest')
end

/-- utils/util.py 877–991 `merge_extracts`. -/
def mergeExtracts (squeeze : Bool) (extracts : List (Forest (Leaf α))) : Except Err (Forest (Leaf α)) :=
  match mergeAll extracts.length 0 .nil extracts with
  | .error e => .error e
  | .ok target => mergeListsItems squeeze target

end Extracts
end TFMA
