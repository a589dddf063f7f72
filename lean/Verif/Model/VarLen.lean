import Mathlib.Data.Nat.Notation
import Verif.Py.Basic

/-!
# VarLenTensorValue (api/types.py 77–215)

Arrays are lists, dtypes are dropped (an empty row comes back with numpy's default dtype).  Row and column
indices are natural numbers; the `np.diff` comparisons of the constructor are written as comparisons of
neighbours.
-/

namespace TFMA
namespace VarLen

/-- The three fields of api/types.py 77–86. -/
structure VarLenTensorValue (α : Type) where
  values : List α
  indices : List (ℕ × ℕ)
  denseShape : List ℕ
  deriving DecidableEq, Repr

variable {α : Type}

/-- One entry of `bad_index_mask` (api/types.py 114–116): `b` follows `a`. -/
def badPair (a b : ℕ × ℕ) : Bool := decide (b.1 < a.1) || (decide (b.1 = a.1) && decide (b.2 < a.2))

/-- `np.any(bad_index_mask)` (api/types.py 109–117). -/
def anyBad : List (ℕ × ℕ) → Bool
  | a :: b :: rest => badPair a b || anyBad (b :: rest)
  | _ => false

/-- api/types.py 99–128 `VarLenTensorValue.__new__`. -/
def new (values : List α) (indices : List (ℕ × ℕ)) (denseShape : List ℕ) :
    Except Err (VarLenTensorValue α) :=
  if denseShape.length ≠ 2 then .error .valueError
  else if anyBad indices then .error .valueError
  else .ok ⟨values, indices, denseShape⟩

/-- `np.nonzero(indices[:, 0] == offset)[0]`, counting positions from `start`. (api/types.py 151–153) -/
def rowPositions (offset : ℕ) : ℕ → List (ℕ × ℕ) → List ℕ
  | _, [] => []
  | start, ix :: rest =>
    if ix.1 = offset then start :: rowPositions offset (start + 1) rest
    else rowPositions offset (start + 1) rest

/-- The row returned by `DenseRowIterator.__next__` for `self._offset = offset` (api/types.py 151–168), after the
StopIteration test. -/
def denseRow (t : VarLenTensorValue α) (offset : ℕ) : Except Err (List α) :=
  let ps := rowPositions offset 0 t.indices
  match ps.head?, ps.getLast? with
  | some first, some last =>
    let rowEnd := last + 1
    if rowEnd - first ≠ ps.length then .error .assertionError
    else .ok ((t.values.take rowEnd).drop first)
  | _, _ => .ok []

/-- rows `offset, …, offset + n - 1`. (api/types.py 130–171) -/
def denseRowsFrom (t : VarLenTensorValue α) (offset : ℕ) : ℕ → Except Err (List (List α))
  | 0 => .ok []
  | n + 1 => match denseRow t offset with
    | .error e => .error e
    | .ok r => match denseRowsFrom t (offset + 1) n with
      | .error e => .error e
      | .ok rs => .ok (r :: rs)

/-- `list(t.dense_rows())` (api/types.py 130–171): iteration stops at once if `indices.size` is zero, else after
`dense_shape[0]` rows. -/
def denseRows (t : VarLenTensorValue α) : Except Err (List (List α)) :=
  if t.indices.isEmpty then .ok []
  else denseRowsFrom t 0 (t.denseShape.headD 0)

/-- An array given to from_dense_rows: number of dimensions and the elements. (api/types.py 173–185) -/
structure Row (α : Type) where
  ndim : ℕ
  data : List α
  deriving DecidableEq, Repr

/-- `[[i, j] for j in range(len(row))]`. (api/types.py 187–213) -/
def rowIndices (i : ℕ) (n : ℕ) : List (ℕ × ℕ) := (List.range n).map fun j => (i, j)

/-- The loop of api/types.py 187–213 starting at row number `i`: concatenated values, concatenated index
arrays, number of rows, largest row size. -/
def fromLoop : ℕ → List (Row α) → Except Err (List α × List (ℕ × ℕ) × ℕ × ℕ)
  | _, [] => .ok ([], [], 0, 0)
  | i, row :: rest =>
    if row.data.length ≠ 0 ∧ 1 < row.ndim then .error .valueError
    else match fromLoop (i + 1) rest with
      | .error e => .error e
      | .ok (vs, ixs, n, m) =>
        .ok (row.data ++ vs, rowIndices i row.data.length ++ ixs, n + 1, max row.data.length m)

/-- api/types.py 173–215 `from_dense_rows` (the maximum is accumulated from the right, which gives the same
number). -/
def fromDenseRows (rows : List (Row α)) : Except Err (VarLenTensorValue α) :=
  match fromLoop 0 rows with
  | .error e => .error e
  | .ok (vs, ixs, n, m) => new vs ixs [n, m]

end VarLen
end TFMA
