import Verif.Model.Loading

/-!
# Files of results

Writing the outputs of an evaluation to files of a directory and finding and reading them again:
writers/metrics_plots_and_validations_writer.py 86–287 and 757–951, writers/eval_config_writer.py.  A directory is a
dictionary from names (lists of characters) to contents.  Protocol buffers are taken as they are: that their encodings
(in a record or as JSON) are read back is assumed.
-/

namespace TFMA
namespace ResultFiles

open Slicer

/-- The name of a file in its directory. (paths are directory and name; writers/eval_config_writer.py 81–83) -/
abbrev Name := List Char

/-- proto/config.proto `EvalRun`, with `κ` for the eval config. (writers/eval_config_writer.py 44–58) -/
structure EvalRun (κ : Type) where
  config : κ
  version : String
  dataLocation : String
  fileFormat : String
  modelLocations : List (String × String)
  deriving DecidableEq, Repr

/-- The contents of a file: records of type `ρ` in one of the two formats, an `EvalRun` as JSON, the pickled
configuration of old versions (already converted; it has no version), or something else.
(writers/metrics_plots_and_validations_writer.py 91–132, writers/eval_config_writer.py 84–116) -/
inductive File (ρ κ : Type) where
  | tfrecord (records : List ρ)
  | parquet (records : List ρ)
  | json (run : EvalRun κ)
  | pickled (run : EvalRun κ)
  | other
  deriving DecidableEq, Repr

/-- The files of a directory. (`tf.io.gfile`) -/
abbrev Dir (ρ κ : Type) := Dict Name (File ρ κ)

variable {ρ κ : Type}

/-! ### writing -/

/-- `_SUPPORTED_FORMATS` (writers/metrics_plots_and_validations_writer.py 48–50). -/
def supported : List String := ["parquet", "tfrecord"]

/-- The contents written for a format. (writers/metrics_plots_and_validations_writer.py 808–836) -/
def encode (fmt : String) (records : List ρ) : File ρ κ :=
  if fmt = "parquet" then .parquet records else .tfrecord records

/-- The files of one output (writers/metrics_plots_and_validations_writer.py 801–918): each shard of the runner is given
by the part of the name it gets (`-SSSSS-of-NNNNN`, chosen by Beam) and its records. -/
def outputFiles (pre : Name) (fmt : String) (shards : List (Name × List ρ)) : List (Name × File ρ κ) :=
  shards.map fun s => (pre ++ s.1 ++ '.' :: fmt.toList, encode fmt s.2)

/-- Files are written to a directory; one of the same name is replaced. (Beam file sinks; files of other names stay) -/
def writeFiles (dir : Dir ρ κ) (files : List (Name × File ρ κ)) : Dir ρ κ :=
  files.foldl (fun d f => Dict.set d f.1 f.2) dir

/-- writers/metrics_plots_and_validations_writer.py 770–775 and 801–918: one of the sliced outputs is written. -/
def writeOutput (dir : Dir ρ κ) (pre : Name) (fmt : String) (shards : List (Name × List ρ)) : Except Err (Dir ρ κ) :=
  if fmt ∈ supported then .ok (writeFiles dir (outputFiles pre fmt shards)) else .error .valueError

/-- writers/metrics_plots_and_validations_writer.py 777–786 `convert_slice_key_to_parquet_dict`: the rows of the
column "slice_key"; of an entry only the value is kept. -/
def parquetKey (k : SliceKeyProto) : List ProtoKind := k.filterMap SingleSliceKeyProto.kind

/-- writers/metrics_plots_and_validations_writer.py 788–800 `convert_to_parquet_columns`: the two columns of a record. -/
def parquetColumns {V : Type} (r : Stored V) : List ProtoKind × Stored V := (parquetKey r.key.sliceKey, r)

/-! ### reading -/

/-- Does the name match the pattern `pre*suf`? (`tf.io.gfile.glob` within one directory) -/
def isMatch (pre suf name : Name) : Bool :=
  pre.isPrefixOf name && suf.isSuffixOf name && decide (pre.length + suf.length ≤ name.length)

/-- `tf.io.gfile.glob(pre + "*" + suf)`; `listing` is the directory in the order of the file system.
(writers/metrics_plots_and_validations_writer.py 86–88, 159–162) -/
def glob (listing : Dir ρ κ) (pre suf : Name) : List (Name × File ρ κ) :=
  listing.filter fun f => isMatch pre suf f.1

/-- The records of files in the TFRecord format, or an error if one is in another format.
(writers/metrics_plots_and_validations_writer.py 125–128) -/
def readTfrecord : List (Name × File ρ κ) → Except Err (List ρ)
  | [] => .ok []
  | (_, .tfrecord rs) :: rest => (readTfrecord rest).map (rs ++ ·)
  | _ :: _ => .error .runtimeError

/-- The column "serialized_value" of files in the Parquet format.
(writers/metrics_plots_and_validations_writer.py 91–99) -/
def readParquet : List (Name × File ρ κ) → Except Err (List ρ)
  | [] => .ok []
  | (_, .parquet rs) :: rest => (readParquet rest).map (rs ++ ·)
  | _ :: _ => .error .runtimeError

/-- writers/metrics_plots_and_validations_writer.py 102–132 `_raw_value_iterator`.  A parquet data set without any file
has no such column and cannot be read. -/
def rawValues (fmt : String) (files : List (Name × File ρ κ)) : Except Err (List ρ) :=
  if fmt = "parquet" then (if files.isEmpty then .error .runtimeError else readParquet files)
  else if fmt = "" || fmt = "tfrecord" then readTfrecord files
  else .error .valueError

/-- `"." + output_file_format` if there is a format. (writers/metrics_plots_and_validations_writer.py 160–161) -/
def suffixOf (fmt : String) : Name := if fmt = "" then [] else '.' :: fmt.toList

/-- The files found for an output (writers/metrics_plots_and_validations_writer.py 157–168, 198–209, 239–250): those with
the suffix or, if there are none, all with the prefix. -/
def findFiles (listing : Dir ρ κ) (pre : Name) (fmt : String) : List (Name × File ρ κ) :=
  let paths := glob listing pre (suffixOf fmt)
  if paths.isEmpty then glob listing pre [] else paths

/-- The records found for an output (writers/metrics_plots_and_validations_writer.py 157–168), before the filter by
slices (`Slicer.load`, C50). -/
def loadRecords (listing : Dir ρ κ) (pre : Name) (fmt : String) : Except Err (List ρ) :=
  rawValues fmt (findFiles listing pre fmt)

/-- writers/metrics_plots_and_validations_writer.py 135–255: the three loaders. -/
def loadSliced {V : Type} (c : NumCodec) (specs : List Spec) (listing : Dir (Stored V) κ) (pre : Name) (fmt : String) :
    Except Err (List (Stored V)) :=
  match loadRecords listing pre fmt with
  | .error e => .error e
  | .ok rs => load c specs rs

/-- writers/metrics_plots_and_validations_writer.py 258–286 `load_and_deserialize_validation_result`. -/
def loadValidation (listing : Dir ρ κ) (pre : Name) (fmt : String) : Except Err ρ :=
  match rawValues fmt (glob listing pre (suffixOf fmt)) with
  | .error e => .error e
  | .ok [r] => .ok r
  | .ok _ => .error .assertionError

/-! ### the configuration -/

/-- writers/eval_config_writer.py 119–157 `EvalConfigWriter`: `None` is replaced by a default. -/
structure ConfigArgs (κ : Type) where
  config : κ
  disabled : List String
  outputFileFormat : String := "json"
  dataLocation : Option String := none
  dataFileFormat : Option String := none
  modelLocations : Option (List (String × String)) := none
  filename : Option Name := none

/-- writers/eval_config_writer.py 81–82, 152–153: the name of the file. -/
def configName (fmt : String) (filename : Option Name) : Name :=
  filename.getD ("eval_config".toList ++ '.' :: fmt.toList)

/-- writers/eval_config_writer.py 44–58 `_serialize_eval_run` with the defaults of 146–151. -/
def evalRun (version : String) (a : ConfigArgs κ) : EvalRun κ :=
  ⟨a.config, version, a.dataLocation.getD "<user provided PCollection>", a.dataFileFormat.getD "<unknown>",
    a.modelLocations.getD [("", "<unknown>")]⟩

/-- writers/eval_config_writer.py 173–224 `_WriteEvalConfig`. -/
def writeConfig (version : String) (a : ConfigArgs κ) (dir : Dir ρ κ) : Except Err (Dir ρ κ) :=
  if "eval_config" ∈ a.disabled then .ok dir
  else if a.outputFileFormat ≠ "" ∧ a.outputFileFormat ≠ "json" then .error .valueError
  else .ok (writeFiles dir [(configName a.outputFileFormat a.filename, .json (evalRun version a))])

/-- The outputs of one run: the shards of the sliced outputs and the verdict.
(writers/metrics_plots_and_validations_writer.py 801–951) -/
structure Outputs (ρ : Type) where
  metrics : List (Name × List ρ)
  plots : List (Name × List ρ)
  attributions : List (Name × List ρ)
  validation : ρ

/-- All the default writers of a run (api/model_eval_lib.py 796–834): the configuration and the four outputs, which are
named by their keys (constants.py 83–99); the verdict is written to one file without shard numbers
(writers/metrics_plots_and_validations_writer.py 910–918). -/
def writeRun (version : String) (a : ConfigArgs κ) (fmt : String) (o : Outputs ρ) (dir : Dir ρ κ) :
    Except Err (Dir ρ κ) :=
  match writeConfig version a dir with
  | .error e => .error e
  | .ok d1 => match writeOutput d1 "metrics".toList fmt o.metrics with
    | .error e => .error e
    | .ok d2 => match writeOutput d2 "plots".toList fmt o.plots with
      | .error e => .error e
      | .ok d3 => match writeOutput d3 "attributions".toList fmt o.attributions with
        | .error e => .error e
        | .ok d4 => writeOutput d4 "validations".toList fmt [([], [o.validation])]

/-- `os.path.splitext(name)[0]`. (python standard library; used in writers/eval_config_writer.py 96) -/
def stem (name : Name) : Name :=
  match name.reverse.dropWhile (· ≠ '.') with
  | [] => name
  | _ :: r => if r.all (· = '.') then name else r.reverse

/-- writers/eval_config_writer.py 61–116 `load_eval_run`: None if there is no configuration.  A pickled configuration has
no version that is tested (`_check_version` gets the dictionary itself). -/
def loadConfig (dir : Dir ρ κ) (fmt : String) (filename : Option Name) : Except Err (Option (EvalRun κ)) :=
  match Dict.get? dir (configName fmt filename) with
  | some (.json run) => if run.version = "" then .error .valueError else .ok (some run)
  | some _ => .error .runtimeError
  | none => match Dict.get? dir (stem (configName fmt filename)) with
    | some (.pickled run) => .ok (some run)
    | some _ => .error .runtimeError
    | none => .ok none

end ResultFiles
end TFMA
