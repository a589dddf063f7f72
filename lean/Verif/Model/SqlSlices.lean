import Verif.Model.Slicer
import Verif.Model.VarLen

/-!
# Slice keys from SQL statements

`extractors/sql_slice_key_extractor.py`, the unbatching of what it writes
(`utils/util.py` 1053–1096) and `extractors/slice_key_extractor.py`.

Simplifications: the tensors of a batch are columns, one list of values per
example; the conversions to TensorFlow tensors and to an Arrow record batch are left
out. A compiled statement is a function of the values the row has by feature name,
and whether it compiles depends on the names of the columns; the cache of compiled
statements is left out.
-/

namespace TFMA.SqlSlices
open TFMA Slicer VarLen

/-- The values of the features of a batch: per feature one entry per example. -/
abbrev Columns := Dict String (List (List RawVal))

/-- The row of an example, as unbatching makes it (utils/util.py 1061–1096). -/
def row (d : Columns) (i : ℕ) : Features := d.map fun e => (e.1, e.2[i]?)

/-- A statement of `slice_keys_sql`, wrapped and compiled
(sql_slice_key_extractor.py 69–78, 83–98): whether it compiles for the columns, and
the slice keys it returns for a row. -/
structure Query where
  compiles : List String → Bool
  run : (String → Option (List RawVal)) → List SliceKey

/-- `config_pb2.SlicingSpec`. -/
structure SlicingSpec where
  columns : List String
  features : List Entry
  sql : Option Query

/-- A batch: the examples, their features and, if there are any, the transformed
features by model name; with one model there is one entry, whose name is not
used. -/
structure Batch (ε : Type) where
  examples : List ε
  features : Columns
  transformed : Option (Dict String Columns)

variable {ε : Type}

/-- sql_slice_key_extractor.py 101–115: the features with the transformed ones put
over them, in place; models listed earlier win. -/
def merged (models : List String) (b : Batch ε) : Columns :=
  match b.transformed with
  | none => b.features
  | some t =>
    if models.length = 1 then (t.map Prod.snd).foldl Dict.update b.features
    else models.reverse.foldl (fun f n =>
      match t.get? n with
      | some d => Dict.update f d
      | none => f) b.features

/-- sql_slice_key_extractor.py 69–78: the statements of the config. -/
def queries (specs : List SlicingSpec) : List Query := specs.filterMap SlicingSpec.sql

/-- sql_slice_key_extractor.py 100–166 `ExtractSqlSliceKeyFn.process`: the features of the
batch afterwards and the slice keys that are added to it. -/
def process (specs : List SlicingSpec) (models : List String) (b : Batch ε) :
    Except Err (Columns × VarLenTensorValue SliceKey) :=
  let f := merged models b
  if (queries specs).any (fun q => !q.compiles f.keys) then .error .runtimeError
  else
    let rows := (List.range b.examples.length).map fun i =>
      (queries specs).flatMap fun q => q.run fun name => ((row f i).get? name).join
    match fromDenseRows (rows.map fun r => (⟨1, r⟩ : Row SliceKey)) with
    | .error e => .error e
    | .ok t => .ok (f, t)

/-- slice_key_extractor.py 60–75: the slice specs, here of a config without cross slicing
specs. -/
def sliceSpecs (c : NumCodec) (specs : List SlicingSpec) : Except Err (List Spec) :=
  match mapE (fun s => mkSpec c s.columns s.features) specs with
  | .error e => .error e
  | .ok l => .ok (if l.isEmpty then [⟨[], []⟩] else l)

/-- slice_key_extractor.py 106–123: where the features of an example are looked for. -/
def accessor (models : List String) (transformed : Option (Dict String Columns))
    (features : Columns) (i : ℕ) : Accessor :=
  match transformed with
  | none => ⟨[], row features i⟩
  | some t =>
    if models.length = 1 then ⟨t.map fun e => row e.2 i, row features i⟩
    else ⟨models.filterMap fun n => (t.get? n).map fun d => row d i, row features i⟩

/-- slice_key_extractor.py 100–158 and slicer_lib.py 680–696 for each example of a batch that has
been taken apart; `keys` are the rows of the slice keys there are already. An example
beyond these rows has none. -/
def fanoutRows (c : NumCodec) (specs : List Spec) (models : List String)
    (transformed : Option (Dict String Columns)) (features : Columns)
    (keys : List (List SliceKey)) : ℕ → List ε → Except Err (List (SliceKey × ε))
  | _, [] => .ok []
  | i, ex :: rest =>
    match fanoutOne c specs (keys.getD i []) (accessor models transformed features i) ex with
    | .error e => .error e
    | .ok ps =>
      match fanoutRows c specs models transformed features keys (i + 1) rest with
      | .error e => .error e
      | .ok qs => .ok (ps ++ qs)

/-- A batch through the extractor of SQL slice keys (only there if some spec has a
statement: api/model_eval_lib.py 510–515 and `default_extractors`), the unbatching and the
extractor of slice keys: the pairs of slice key and example. -/
def sliceBatch (c : NumCodec) (specs : List SlicingSpec) (models : List String)
    (b : Batch ε) : Except Err (List (SliceKey × ε)) :=
  match sliceSpecs c specs with
  | .error e => .error e
  | .ok ss =>
    if (queries specs).isEmpty then fanoutRows c ss models b.transformed b.features [] 0 b.examples
    else
      match process specs models b with
      | .error e => .error e
      | .ok (f, t) =>
        match denseRows t with
        | .error e => .error e
        | .ok keys => fanoutRows c ss models b.transformed f keys 0 b.examples

end TFMA.SqlSlices
