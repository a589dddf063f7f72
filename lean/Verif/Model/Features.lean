import Verif.Py.Basic
import Verif.Model.VarLen

/-!
# Features out of record batches

extractors/features_extractor.py 86–200 and utils/util.py 80–109 and 283–389.

An Arrow column is its name, its type (is it a list, and of what) and its rows, a missing row being `none`.  Columns
whose type is not a list have no rows here: they are never read.  What the TensorAdapter of TFX-BSL makes of a tensor
representation the user gave is a parameter; what it makes of the two representations TFMA chooses by itself is written
out: a dense tensor of the rows, and for a variable length column the values, their (row, column) positions and the
shape.
-/

namespace TFMA
namespace Features

open VarLen (VarLenTensorValue)

variable {α G X : Type}

/-- The value types told apart in extractors/features_extractor.py 91–108 (`integer` and `floating` are the numbers,
`binaryLike` bytes and texts, large or not). -/
inductive ValueType where
  | integer | floating | binaryLike | other
  deriving DecidableEq, Repr

/-- A column of a pa.RecordBatch. (extractors/features_extractor.py 130–133) -/
structure Column (α : Type) where
  name : String
  listLike : Bool
  valueType : ValueType
  rows : List (Option (List α))
  deriving DecidableEq, Repr

/-- `constants.ARROW_INPUT_COLUMN`. (constants.py 63) -/
def inputColumn : String := "__raw_record__"

/-- extractors/features_extractor.py 91–97 `_is_binary_like`. -/
def isBinaryLike : ValueType → Bool
  | .binaryLike => true
  | _ => false

/-- extractors/features_extractor.py 101–106 `_is_supported_arrow_value_type`. -/
def isSupported (t : ValueType) : Bool := t = .integer || t = .floating || isBinaryLike t

/-- `column_array.flatten()`: missing rows disappear. (extractors/features_extractor.py 138) -/
def flatten (rows : List (Option (List α))) : List α := rows.flatMap fun r => r.getD []

/-- extractors/features_extractor.py 108–146 `_drop_unsupported_columns_and_fetch_raw_data_column`, the loop with what
was collected so far. -/
def dropLoop : List (Column α) → List (Column α) → Option (List α) →
    Except Err (List (Column α) × Option (List α))
  | [], kept, raw => .ok (kept, raw)
  | c :: cs, kept, raw =>
    if c.name = inputColumn then
      if c.listLike && isBinaryLike c.valueType then dropLoop cs kept (some (flatten c.rows))
      else .error .assertionError
    else if c.listLike && isSupported c.valueType then dropLoop cs (kept ++ [c]) raw
    else dropLoop cs kept raw

/-- extractors/features_extractor.py 109–152. -/
def dropUnsupported (batch : List (Column α)) : Except Err (List (Column α) × Option (List α)) := dropLoop batch [] none

/-- `rep.WhichOneof("kind")` of schema_pb2.TensorRepresentation. (utils/util.py 353, 374) -/
inductive Kind where
  | dense | varlen | sparse | ragged
  deriving DecidableEq, Repr

/-- A tensor representation given by the user: its kind, for a sparse tensor the index columns and the value column,
and everything else in `detail`. (utils/util.py 285–287, 353–356) -/
structure Given (G : Type) where
  kind : Kind
  indexColumns : List String
  valueColumn : String
  detail : G

/-- A tensor representation handed to the TensorAdapter: given, or one of the two built in utils/util.py 327–331 and
337–347 (a dense tensor has the size of its rows, or no dimension if the column has no rows). -/
inductive Rep (G : Type) where
  | given (g : Given G)
  | varlen (column : String)
  | dense (column : String) (size : Option ℕ)

/-- `WhichOneof("kind")` of a representation. (utils/util.py 374) -/
def Rep.kind : Rep G → Kind
  | .given g => g.kind
  | .varlen _ => .varlen
  | .dense _ _ => .dense

/-- What `adapter.ToBatchTensors` yields for a representation (utils/util.py 367–383). -/
inductive Adapted (α : Type) where
  | ragged (values : List α) (splits : List (List ℕ))
  | sparse (values : List α) (indices : List (List ℕ)) (shape : List ℕ)
  | dense (rows : List (List α))

/-- The values of features (types.RaggedTensorValue, SparseTensorValue, VarLenTensorValue, and arrays: dense, or holding
rows as objects with None for missing ones). (utils/util.py 80–109, 336) -/
inductive Value (α : Type) where
  | ragged (values : List α) (splits : List (List ℕ))
  | sparse (values : List α) (indices : List (List ℕ)) (shape : List ℕ)
  | varlen (t : VarLenTensorValue α)
  | dense (rows : List (List α))
  | objects (rows : List (Option (List α)))

/-- TFX-BSL for the representations given by users: can a handler be built for the schema (TensorAdapter's
constructor), and the conversion of a batch. (utils/util.py 361–369) -/
structure Adapter (G α : Type) where
  build : Given G → List (Column α) → Except Err Unit
  convert : Given G → List (Column α) → Except Err (Adapted α)

/-- `record_batch.column(i)` by name. -/
def column? (batch : List (Column α)) (name : String) : Option (Column α) := batch.find? fun c => c.name = name

/-- The positions of the values of the rows from row `i` on, as TFX-BSL numbers them. (utils/util.py 367) -/
def positions : ℕ → List (Option (List α)) → List (List ℕ)
  | _, [] => []
  | i, r :: rs => ((List.range (r.getD []).length).map fun j => [i, j]) ++ positions (i + 1) rs

/-- The size of the longest row. (utils/util.py 367) -/
def longest : List (Option (List α)) → ℕ
  | [] => 0
  | r :: rs => max (r.getD []).length (longest rs)

/-- TensorAdapter's constructor for one representation. (utils/util.py 361–366) -/
def build (a : Adapter G α) (batch : List (Column α)) : Rep G → Except Err Unit
  | .given g => a.build g batch
  | _ => .ok ()

/-- ToBatchTensors for one representation. (utils/util.py 368–370) -/
def convert (a : Adapter G α) (batch : List (Column α)) : Rep G → Except Err (Adapted α)
  | .given g => a.convert g batch
  | .varlen name => match column? batch name with
    | none => .error .keyError
    | some c => .ok (.sparse (flatten c.rows) (positions 0 c.rows) [c.rows.length, longest c.rows])
  | .dense name _ => match column? batch name with
    | none => .error .keyError
    | some c => .ok (.dense (c.rows.map fun r => r.getD []))

/-- The index array of a 2D sparse tensor as pairs; other widths cannot be indexed by the constructor of
VarLenTensorValue (`indices[:, 1]`) or are rejected by the test of the shape before. (api/types.py 99–128) -/
def pairs : List (List ℕ) → Except Err (List (ℕ × ℕ))
  | [] => .ok []
  | [i, j] :: rest => match pairs rest with
    | .error e => .error e
    | .ok ps => .ok ((i, j) :: ps)
  | _ :: _ => .error .indexError

/-- utils/util.py 91–99 `to_varlen_sparse_tensor_value`. -/
def toVarlen (values : List α) (indices : List (List ℕ)) (shape : List ℕ) : Except Err (Value α) :=
  if shape.length ≠ 2 then .error .valueError
  else match pairs indices with
    | .error e => .error e
    | .ok ps => match VarLen.new values ps shape with
      | .error e => .error e
      | .ok t => .ok (.varlen t)

/-- utils/util.py 371–385: the value stored for an adapted tensor.  -/
def toValue (kind : Kind) : Adapted α → Except Err (Value α)
  | .ragged v s => .ok (.ragged v s)
  | .sparse v i s => match kind with
    | .sparse => .ok (.sparse v i s)
    | .varlen => toVarlen v i s
    | _ => .error .valueError
  | .dense r => .ok (.dense r)

/-- `record_batch.column(i).value_lengths()`: missing for a missing row. (utils/util.py 325) -/
def lengths (c : Column α) : List (Option ℕ) := c.rows.map fun r => r.map List.length

/-- `unique()`. (utils/util.py 325) -/
def unique : List (Option ℕ) → List (Option ℕ)
  | [] => []
  | x :: xs => x :: (unique xs).filter (· ≠ x)

/-- What becomes of a column without representation (utils/util.py 325–347): a representation, or the value itself. -/
def defaultFor (c : Column α) : Value α ⊕ Rep G :=
  if (unique (lengths c)).length ≠ 1 then .inr (.varlen c.name)
  else if c.rows.all Option.isSome then
    .inr (.dense c.name (c.rows.head?.map fun r => (r.getD []).length))
  else .inl (.objects c.rows)

/-- utils/util.py 317–347, the loop over the columns: features, updated representations, representations left. -/
def columnLoop : List (Column α) → Dict String (Value α) → Dict String (Rep G) → Dict String (Given G) →
    Dict String (Value α) × Dict String (Rep G) × Dict String (Given G)
  | [], features, updated, left => (features, updated, left)
  | c :: cs, features, updated, left => match Dict.get? left c.name with
    | some g => columnLoop cs features (Dict.set updated c.name (.given g)) (Dict.del left c.name)
    | none => match defaultFor c with
      | .inl v => columnLoop cs (Dict.set features c.name v) updated left
      | .inr r => columnLoop cs features (Dict.set updated c.name r) left

/-- utils/util.py 352–360: is the representation added although no column has its name? -/
def complete (batch : List (Column α)) (g : Given G) : Bool :=
  g.kind = .sparse && (g.indexColumns ++ [g.valueColumn]).all fun n => (batch.map Column.name).contains n

/-- utils/util.py 348–360. -/
def sparseLoop (batch : List (Column α)) : Dict String (Given G) → Dict String (Rep G) → Dict String (Rep G)
  | [], updated => updated
  | (name, g) :: rest, updated =>
    sparseLoop batch rest (if complete batch g then Dict.set updated name (.given g) else updated)

/-- TensorAdapter's constructor: one handler per representation. (utils/util.py 361–366) -/
def buildAll (a : Adapter G α) (batch : List (Column α)) : Dict String (Rep G) → Except Err Unit
  | [] => .ok ()
  | (_, r) :: rest => match build a batch r with
    | .error e => .error e
    | .ok () => buildAll a batch rest

/-- utils/util.py 367–385 within the try; the tensors are converted before the first is stored. -/
def convertAll (a : Adapter G α) (batch : List (Column α)) :
    Dict String (Rep G) → Dict String (Value α) → Except Err (Dict String (Value α))
  | [], features => .ok features
  | (name, r) :: rest, features => match convert a batch r with
    | .error e => .error e
    | .ok t => match toValue r.kind t with
      | .error e => .error e
      | .ok v => convertAll a batch rest (Dict.set features name v)

/-- utils/util.py 283–389 `record_batch_to_tensor_values`; every exception of the conversion is reported as ValueError
(386–387), those of the TensorAdapter's constructor are not. -/
def tensorValues (a : Adapter G α) (batch : List (Column α)) (reps : Dict String (Given G)) :
    Except Err (Dict String (Value α)) :=
  let s := columnLoop batch [] [] reps
  let updated := sparseLoop batch s.2.2 s.2.1
  if updated.isEmpty then .ok s.1
  else match buildAll a batch updated with
    | .error e => .error e
    | .ok () => match convertAll a batch updated s.1 with
      | .error _ => .error .valueError
      | .ok features => .ok features

/-- The extracts as far as the extractor reads or writes them: the entries under tfma.ARROW_RECORD_BATCH_KEY,
tfma.FEATURES_KEY and tfma.INPUT_KEY, if present (the last can be present and None), and the others.
(extractors/features_extractor.py 176–200) -/
structure Extracts (α X : Type) where
  batch : Option (List (Column α))
  features : Option (Dict String (Value α))
  input : Option (Option (List α))
  others : Dict String X

/-- extractors/features_extractor.py 176–200 `extract_features`: the result and what the incoming extracts look like
afterwards.  `copy.copy` copies the outer dictionary only, so `features.update` changes the dictionary the incoming
extracts hold. -/
def extractFeatures (a : Adapter G α) (reps : Dict String (Given G)) (e : Extracts α X) :
    Except Err (Extracts α X × Extracts α X) :=
  match e.batch with
  | some b => match dropUnsupported b with
    | .error er => .error er
    | .ok (kept, raw) => match tensorValues a kept reps with
      | .error er => .error er
      | .ok new =>
        let features := Dict.update (e.features.getD []) new
        .ok (⟨none, some features, some raw, e.others⟩, { e with features := e.features.map fun _ => features })
  | none => match e.features with
    | some _ => .ok (e, e)
    | none => .error .valueError

end Features
end TFMA
