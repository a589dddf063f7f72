import Verif.Model.Loading
import Verif.Model.MetricKeys

/-!
# Metrics and plots as data frames (api/dataframe.py)

A protocol buffer message is a tree of fields in the order of its descriptor.  A data frame is the list of its columns, each with
its cells and their row numbers; pandas' alignment of the columns is modelled by `frame` and `Frame.cell`.
-/

namespace TFMA
namespace DataFrames

/-- A primitive value of a field. (api/dataframe.py 158–160; python's numbers, bytes and texts) -/
inductive Prim where
  | int (i : ℤ)
  | num (q : ℚ)
  | bool (b : Bool)
  | bytes (b : List UInt8)
  | text (s : String)
  deriving DecidableEq, Repr

mutual
/-- The value of a field: a singular primitive, a repeated primitive, a message that is not set, one of the wrapped primitives
(api/dataframe.py 81–89), another message, a repeated message. -/
inductive Field where
  | scalar (v : Prim)
  | scalars (vs : List Prim)
  | absent
  | wrapper (v : Prim)
  | message (fs : Fields)
  | messages (ms : Msgs)

/-- The fields of a message with their names. (api/dataframe.py 143–147) -/
inductive Fields where
  | nil
  | cons (name : String) (f : Field) (rest : Fields)

/-- Repeated messages. (api/dataframe.py 148–157) -/
inductive Msgs where
  | nil
  | cons (m : Fields) (rest : Msgs)
end

/-- A message with the given fields. (notation for api/dataframe.py 143–147) -/
def Fields.ofList : List (String × Field) → Fields
  | [] => .nil
  | (n, f) :: rest => .cons n f (Fields.ofList rest)

/-- Repeated messages as a list. (notation for api/dataframe.py 148–157) -/
def Msgs.ofList : List Fields → Msgs
  | [] => .nil
  | m :: rest => .cons m (Msgs.ofList rest)

/-- The fields as a list. (api/dataframe.py 216) -/
def Fields.toList : Fields → List (String × Field)
  | .nil => []
  | .cons n f rest => (n, f) :: rest.toList

/-- What `_flatten_proto` generates: name, value (`None` for a message that is not set), row number. (api/dataframe.py 112) -/
abbrev Leaf := String × Option Prim × ℕ

/-- One element of a repeated primitive field: it is no message and its field is repeated, so it is enumerated itself
(api/dataframe.py 148–157): numbers cannot be enumerated, bytes are made of numbers, texts are made of texts without end. -/
def enumerate : Prim → Except Err Unit
  | .int _ => .error .typeError
  | .num _ => .error .typeError
  | .bool _ => .error .typeError
  | .bytes [] => .ok ()
  | .bytes (_ :: _) => .error .typeError
  | .text s => if s = "" then .ok () else .error .runtimeError

/-- The loop over a repeated primitive field. (api/dataframe.py 149–157) -/
def enumerateAll : List Prim → Except Err Unit
  | [] => .ok ()
  | v :: vs => match enumerate v with
    | .error e => .error e
    | .ok _ => enumerateAll vs

mutual
/-- api/dataframe.py 127–160 `_flatten_proto_in`. -/
def flatten (includeEmpty : Bool) (name : String) (f : Field) (index : ℕ) : Except Err (List Leaf) :=
  match f with
  | .absent => .ok (if includeEmpty then [(name, none, index)] else [])
  | .wrapper v => .ok [(name, some v, index)]
  | .message fs => flattenFields includeEmpty fs index
  | .messages ms => flattenMsgs includeEmpty ms index
  | .scalars vs => (enumerateAll vs).map fun _ => []
  | .scalar v => .ok [(name, some v, index)]

/-- The loop over the fields of a message. (api/dataframe.py 143–147) -/
def flattenFields (includeEmpty : Bool) (fs : Fields) (index : ℕ) : Except Err (List Leaf) :=
  match fs with
  | .nil => .ok []
  | .cons n f rest => match flatten includeEmpty n f index with
    | .error e => .error e
    | .ok l => (flattenFields includeEmpty rest index).map (l ++ ·)

/-- The loop over the elements of a repeated message. (api/dataframe.py 148–157) -/
def flattenMsgs (includeEmpty : Bool) (ms : Msgs) (index : ℕ) : Except Err (List Leaf) :=
  match ms with
  | .nil => .ok []
  | .cons m rest => match flattenFields includeEmpty m index with
    | .error e => .error e
    | .ok l => (flattenMsgs includeEmpty rest (index + 1)).map (l ++ ·)
end

/-- A cell and its row number. (api/dataframe.py 41–50) -/
abbrev Cells := List (Option Prim × ℕ)

/-- api/dataframe.py 40–50 `_ColumnData`. -/
structure Columns where
  slices : Dict String Cells := []
  keys : Dict String Cells := []
  values : Dict String Cells := []

/-- `d[k].extend(cells)` for a `defaultdict(list)`. (api/dataframe.py 231, 240, 246, 250) -/
def push (d : Dict String Cells) (k : String) (cells : Cells) : Dict String Cells :=
  Dict.set d k ((Dict.get? d k).getD [] ++ cells)

/-- A record: its key, and the keys and values of its metrics or plots. (api/dataframe.py 206–220) -/
structure Record where
  key : Slicer.StoredKey
  keysAndValues : List (Field × Fields)

/-- api/dataframe.py 166–178 `_get_slice_value`. -/
def sliceValue : Option Slicer.ProtoKind → Except Err Prim
  | some (.floatValue q) => .ok (.num q)
  | some (.bytesValue b) => .ok (.bytes b.toList)
  | some (.int64Value i) => .ok (.int i)
  | none => .error .notImplementedError

/-- api/dataframe.py 207–210: the entries of `slice_key`, which is empty if the record has a cross slice key. -/
def sliceColumns : Slicer.StoredKey → Except Err (List (String × Prim))
  | .slice ks => Slicer.mapE (fun k => (sliceValue k.kind).map (k.column, ·)) ks
  | .cross _ => .ok []

/-- api/dataframe.py 222–230: fields that are skipped. -/
def skipped : Field → Bool
  | .absent => true
  | .scalar (.bytes b) => b.isEmpty
  | .scalar (.text s) => s == ""
  | .scalar (.int i) => i == 0
  | .scalar (.num q) => q == 0
  | .scalar (.bool b) => !b
  | .scalars vs => vs.isEmpty
  | .messages .nil => true
  | _ => false

/-- The same cell in the rows from `index` on. (api/dataframe.py 241, 247, 251) -/
def repeated (v : Option Prim) (index index' : ℕ) : Cells := (List.range (index' - index)).map fun i => (v, index + i)

/-- The columns made for a type of metrics. (api/dataframe.py 197) -/
abbrev ColumnData := Dict String Columns

/-- `index_end` after the loop over the leaves: one more than the row number of the last leaf. (api/dataframe.py 235–239) -/
def rowsEnd (index : ℕ) (leaves : List Leaf) : ℕ :=
  match leaves.getLast? with
  | none => index
  | some l => l.2.2 + 1

/-- api/dataframe.py 222–260: one field of a value. -/
def addField (includeEmpty : Bool) (slices : List (String × Prim)) (key : Field) (st : ColumnData × ℕ) (nf : String × Field) :
    Except Err (ColumnData × ℕ) :=
  if skipped nf.2 then .ok st
  else
    match flatten false nf.1 nf.2 st.2 with
    | .error e => .error e
    | .ok leaves =>
      let stop := rowsEnd st.2 leaves
      match flatten includeEmpty "key" key st.2 with
      | .error e => .error e
      | .ok keyLeaves =>
        let c := (Dict.get? st.1 nf.1).getD {}
        let c : Columns := ⟨(if slices = [] then [("Overall", Prim.text "")] else slices).foldl
            (fun d s => push d s.1 (repeated (some s.2) st.2 stop)) c.slices,
          keyLeaves.foldl (fun d l => push d l.1 (repeated l.2.1 st.2 stop)) c.keys,
          leaves.foldl (fun d l => push d l.1 [(l.2.1, l.2.2)]) c.values⟩
        .ok (Dict.set st.1 nf.1 c, stop)

/-- A loop that can fail. (api/dataframe.py 200, 214, 216) -/
def loop {α β : Type} (f : β → α → Except Err β) : β → List α → Except Err β
  | b, [] => .ok b
  | b, a :: rest => match f b a with
    | .error e => .error e
    | .ok b' => loop f b' rest

/-- api/dataframe.py 206–260: one record. -/
def addRecord (includeEmpty : Bool) (st : ColumnData × ℕ) (r : Record) : Except Err (ColumnData × ℕ) :=
  match sliceColumns r.key with
  | .error e => .error e
  | .ok slices => loop (fun st kv => loop (addField includeEmpty slices kv.1) st kv.2.toList) st r.keysAndValues

/-- The group of a column. (api/dataframe.py 71–79) -/
inductive Group where
  | slices
  | keys
  | values
  deriving DecidableEq, Repr

/-- A data frame: its columns. (api/dataframe.py 271–276) -/
abbrev Frame := List ((Group × String) × Cells)

/-- The value in a row and a column; `none` where pandas has NaN. (api/dataframe.py 271–276) -/
def Frame.cell (f : Frame) (row : ℕ) (column : Group × String) : Option (Option Prim) :=
  match f.find? fun c => c.1 = column with
  | none => none
  | some c => (c.2.find? fun x => x.2 = row).map (·.1)

/-- api/dataframe.py 261–277: pandas aligns the columns by row number, which fails for a column with a row number twice unless all
columns have the same row numbers. -/
def frame (c : Columns) : Except Err Frame :=
  let columns : Frame := (c.slices.map fun x => ((.slices, x.1), x.2)) ++ (c.keys.map fun x => ((.keys, x.1), x.2)) ++
    (c.values.map fun x => ((.values, x.1), x.2))
  let rows := columns.map fun x => x.2.map (·.2)
  if rows.all (fun r => r.Nodup) ∨ rows.all (fun r => r == rows.headD []) then .ok columns else .error .valueError

/-- api/dataframe.py 181–278 `_to_dataframes`. -/
def toDataframes (includeEmpty : Bool) (records : List Record) : Except Err (Dict String Frame) :=
  match loop (addRecord includeEmpty) ([], 0) records with
  | .error e => .error e
  | .ok st => Slicer.mapE (fun x => (frame x.2).map (x.1, ·)) st.1

/-- The fields of `MetricsDataFrames` (api/dataframe.py 53–59). -/
def metricTypes : List String :=
  ["double_value", "confusion_matrix_at_thresholds", "multi_class_confusion_matrix_at_thresholds", "bytes_value", "array_value"]

/-- The fields of `PlotsDataFrames` (api/dataframe.py 62–68). -/
def plotTypes : List String :=
  ["calibration_histogram_buckets", "confusion_matrix_at_thresholds", "multi_class_confusion_matrix_at_thresholds",
    "multi_label_confusion_matrix_at_thresholds", "debug_message"]

/-- api/dataframe.py 281–366 `metrics_as_dataframes`, 369–462 `plots_as_dataframes`: an unknown argument of the constructor is a
TypeError. -/
def asDataframes (types : List String) (includeEmpty : Bool) (records : List Record) : Except Err (Dict String Frame) :=
  match toDataframes includeEmpty records with
  | .error e => .error e
  | .ok dfs => if dfs.all (fun x => types.contains x.1) then .ok dfs else .error .typeError

/-- The message of a sub key. (proto/metrics_for_slice.proto 24–40) -/
def subKeyField (s : Option MetricKeys.SubKeyPb) : Field :=
  match s with
  | none => .absent
  | some s =>
    let int (x : Option ℤ) : Field := match x with
      | none => .absent
      | some i => .wrapper (.int i)
    .message (.ofList [("class_id", int s.classId), ("k", int s.k), ("top_k", int s.topK)])

/-- The message of an aggregation type: the members of the oneof that are not set are False, and they are emitted.
(proto/metrics_for_slice.proto 41–50) -/
def aggregationField (a : Option MetricKeys.AggregationPb) : Field :=
  match a with
  | none => .absent
  | some a =>
    let flags : Bool × Bool × Bool := match a with
      | .unset => (false, false, false)
      | .microAvg b => (b, false, false)
      | .macroAvg b => (false, b, false)
      | .weightedMacro b => (false, false, b)
    .message (.ofList [("micro_average", .scalar (.bool flags.1)), ("macro_average", .scalar (.bool flags.2.1)),
      ("weighted_macro_average", .scalar (.bool flags.2.2))])

/-- The message of a metric key, in the order of its descriptor. (proto/metrics_for_slice.proto 59–78) -/
def keyField (k : MetricKeys.MetricKeyPb) : Field :=
  .message (.ofList [("name", .scalar (.text k.name)), ("model_name", .scalar (.text k.modelName)),
    ("output_name", .scalar (.text k.outputName)), ("sub_key", subKeyField k.subKey),
    ("aggregation_type", aggregationField k.aggregationType),
    ("example_weighted", match k.exampleWeighted with
      | none => .absent
      | some b => .wrapper (.bool b)),
    ("is_diff", .scalar (.bool k.isDiff))])

end DataFrames
end TFMA
