import Mathlib.Data.List.Sort
import Mathlib.Data.Nat.Notation
import Verif.Model.VarLen

/-!
# Sparse and ragged tensor values in split_extracts and merge_extracts (utils/util.py 877–1117)

Arrays are lists and dtypes are dropped.  The TensorFlow operations the code calls (`tf.SparseTensor`, `tf.sparse.expand_dims`,
`sparse_concat`, `tf.RaggedTensor.from_nested_row_splits`, indexing a ragged tensor, `tf.expand_dims` and `tf.concat` of ragged
tensors) are written out as their documentation describes them; the values of a ragged tensor are an array of one dimension.
-/

namespace TFMA
namespace Tensors

open VarLen

variable {α : Type}

/-- The fields of api/types.py 57–74 `SparseTensorValue`; `indices` is given by its rows. -/
structure Sparse (α : Type) where
  values : List α
  indices : List (List ℕ)
  denseShape : List ℕ
  deriving DecidableEq, Repr

/-- The fields of api/types.py 41–54 `RaggedTensorValue`; the outermost dimension comes first. -/
structure Ragged (α : Type) where
  values : List α
  splits : List (List ℕ)
  deriving DecidableEq, Repr

/-! ### sparse -/

/-- The loop body of utils/util.py 1001–1015 for the row `i`: the entries whose first index is `i`, without that index. -/
def sparseRow (t : Sparse α) (shape : List ℕ) (i : ℕ) : Sparse α :=
  let sel := (t.indices.zip t.values).filter fun e => e.1.headD 0 == i
  ⟨sel.map Prod.snd, sel.map fun e => e.1.tail, shape⟩

/-- utils/util.py 994–1016 `_split_sparse_batch`: `indices[:, 0]` needs a column and a mask needs the length of the array it is
applied to. -/
def splitSparse (t : Sparse α) : Except Err (List (Sparse α)) :=
  match t.denseShape with
  | [] => .error .indexError
  | n :: shape =>
    if t.indices.any List.isEmpty then .error .indexError
    else if n ≠ 0 ∧ t.indices.length ≠ t.values.length then .error .indexError
    else .ok ((List.range n).map (sparseRow t shape))

/-- Row-major order of indices. (the order `sparse_concat` leaves its entries in, utils/util.py 947–951) -/
def lexLe : List ℕ → List ℕ → Bool
  | [], _ => true
  | _ :: _, [] => false
  | a :: as, b :: bs => decide (a < b) || (decide (a = b) && lexLe as bs)

/-- The checks of `tf.SparseTensor` (utils/util.py 158–166): one index per value and one number per dimension. -/
def sparseOk (t : Sparse α) : Bool :=
  decide (t.indices.length = t.values.length) && t.indices.all fun ix => decide (ix.length = t.denseShape.length)

/-- `tf.sparse.expand_dims(t, 0)` for the `i`-th tensor and the offset `sparse_concat` adds to its indices.
(utils/util.py 947–951) -/
def placed (i : ℕ) : List (Sparse α) → List (List ℕ × α)
  | [] => []
  | t :: ts => (t.indices.zip t.values).map (fun e => (i :: e.1, e.2)) ++ placed (i + 1) ts

/-- `sparse_concat(0, …, expand_nonconcat_dim=True)` (utils/util.py 947–952): all tensors need the same number of dimensions;
each dimension becomes the largest one; the entries are put in row-major order. -/
def mergeSparse : List (Sparse α) → Except Err (Sparse α)
  | [] => .error .valueError
  | t :: ts =>
    if !((t :: ts).all sparseOk) then .error .valueError
    else if !(ts.all fun u => decide (u.denseShape.length = t.denseShape.length)) then .error .valueError
    else
      let es := (placed 0 (t :: ts)).insertionSort fun a b => lexLe a.1 b.1 = true
      .ok ⟨es.map Prod.snd, es.map Prod.fst,
        (ts.length + 1) :: ts.foldl (fun s u => List.zipWith max s u.denseShape) t.denseShape⟩

/-! ### ragged -/

/-- Number of rows of the dimension the row splits `splits` (outermost first) describe. (`RaggedTensor.nrows`) -/
def nrows (values : List α) : List (List ℕ) → ℕ
  | [] => values.length
  | s :: _ => s.length - 1

/-- What `from_nested_row_splits` checks of the row splits of one dimension: they begin with 0, do not decrease and end with the
number of rows of the next dimension. (utils/util.py 153–156) -/
def splitsOk (s : List ℕ) (m : ℕ) : Bool :=
  decide (s.head? = some 0) && decide (s.getLast? = some m) && (s.zip s.tail).all fun p => decide (p.1 ≤ p.2)

/-- all checks of `from_nested_row_splits`. (utils/util.py 153–156) -/
def raggedOk (values : List α) : List (List ℕ) → Bool
  | [] => true
  | s :: rest => splitsOk s (nrows values rest) && raggedOk values rest

/-- The rows `a ≤ i < b` of a (ragged) tensor: of the row splits those from `a` to `b` are kept and made to begin with 0.
(`RaggedTensor.__getitem__`, utils/util.py 1082) -/
def sliceR (values : List α) : List (List ℕ) → ℕ → ℕ → Ragged α
  | [], a, b => ⟨(values.take b).drop a, []⟩
  | s :: rest, a, b =>
    let start := s.getD a 0
    let r := sliceR values rest start (s.getD b 0)
    ⟨r.values, ((s.take (b + 1)).drop a).map (· - start) :: r.splits⟩

/-- The rows of a ragged tensor whose outermost row splits are `s`. (utils/util.py 1057–1060, 1082) -/
def raggedRows (t : Ragged α) (s : List ℕ) (rest : List (List ℕ)) : List (Ragged α) :=
  (s.zip s.tail).map fun p => sliceR t.values rest p.1 p.2

/-- `tf.concat([x, y], 0)` for tensors with the same number of ragged dimensions: the row splits of `y` are moved by the last row
split of `x`. (utils/util.py 957–959) -/
def appendSplits : List (List ℕ) → List (List ℕ) → List (List ℕ)
  | s :: ss, u :: us => (s ++ u.tail.map (· + s.getLastD 0)) :: appendSplits ss us
  | _, _ => []

/-- `tf.concat(…, 0)` (utils/util.py 957–959) -/
def appendR (x y : Ragged α) : Ragged α := ⟨x.values ++ y.values, appendSplits x.splits y.splits⟩

/-- `tf.expand_dims(t, 0)`. (utils/util.py 957–959) -/
def expandR (t : Ragged α) : Ragged α := ⟨t.values, [0, nrows t.values t.splits] :: t.splits⟩

/-- utils/util.py 953–960: every row has to be accepted by `from_nested_row_splits`, and have the same number of dimensions.
(Values without row splits, which are ordinary tensors and never come out of split_extracts, are refused here.) -/
def mergeRagged : List (Ragged α) → Except Err (Ragged α)
  | [] => .error .valueError
  | t :: ts =>
    if !((t :: ts).all fun r => raggedOk r.values r.splits) then .error .valueError
    else if t.splits = [] ∨ !(ts.all fun u => decide (u.splits.length = t.splits.length)) then .error .valueError
    else .ok (ts.foldl (fun acc u => appendR acc (expandR u)) (expandR t))

end Tensors
end TFMA
