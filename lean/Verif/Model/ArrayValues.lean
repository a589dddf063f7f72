import Verif.Py.Basic
import Verif.Py.Float
import Mathlib.Data.String.Basic

/-!
# Values of metrics in the written messages

writers/metrics_plots_and_validations_writer.py 289–338: `_convert_to_array_value` and `convert_metric_value_to_proto`.
-/

namespace TFMA
namespace ArrayValues

variable {α : Type}

/-- A numpy array: its shape and the entry at each index. (numpy) -/
structure Nd (α : Type) where
  shape : List ℕ
  entry : List ℕ → α

/-- The indices of a shape, the last one running fastest. (numpy) -/
def indices : List ℕ → List (List ℕ)
  | [] => [[]]
  | n :: s => (List.range n).flatMap fun i => (indices s).map fun ix => i :: ix

/-- `array.flatten()`. (writers/metrics_plots_and_validations_writer.py 295, 298, 301, 304, 309) -/
def Nd.flatten (a : Nd α) : List α := (indices a.shape).map a.entry

/-- Arrays by `dtype`: those with a field of their own, arrays of bytes, and any others with the name of the type and the text (`str`)
of each entry. (writers/metrics_plots_and_validations_writer.py 293–310) -/
inductive NArray where
  | int32 (a : Nd ℤ)
  | int64 (a : Nd ℤ)
  | float32 (a : Nd Fl)
  | float64 (a : Nd Fl)
  | bytes (a : Nd ByteArray)
  | other (dtype : String) (a : Nd String)

/-- proto/metrics_for_slice.proto 197–204. -/
inductive DataType where
  | unknown | bytes | int32 | int64 | float32 | float64
  deriving DecidableEq

/-- proto/metrics_for_slice.proto 196–216 `ArrayValue`. -/
structure Msg where
  dataType : DataType := .unknown
  shape : List ℕ := []
  bytesValues : List ByteArray := []
  int32Values : List ℤ := []
  int64Values : List ℤ := []
  float32Values : List Fl := []
  float64Values : List Fl := []
  deriving DecidableEq

/-- numpy decodes bytes as ASCII; encoded again they are the same bytes. (`astype(str)` and `as_bytes`,
writers/metrics_plots_and_validations_writer.py 308–310; the zeros at the end of an entry, which numpy drops, are not there) -/
def recode (b : ByteArray) : Except Err ByteArray :=
  if b.data.toList.all fun x => decide (x < 128) then .ok b else .error .unicodeError

/-- The entries one after another. (writers/metrics_plots_and_validations_writer.py 308–310) -/
def recodeAll : List ByteArray → Except Err (List ByteArray)
  | [] => .ok []
  | b :: rest =>
    match recode b with
    | .error e => .error e
    | .ok b =>
      match recodeAll rest with
      | .error e => .error e
      | .ok bs => .ok (b :: bs)

/-- writers/metrics_plots_and_validations_writer.py 289–311 `_convert_to_array_value`. -/
def convertArray : NArray → Except Err Msg
  | .int32 a => .ok { dataType := .int32, shape := a.shape, int32Values := a.flatten }
  | .int64 a => .ok { dataType := .int64, shape := a.shape, int64Values := a.flatten }
  | .float32 a => .ok { dataType := .float32, shape := a.shape, float32Values := a.flatten }
  | .float64 a => .ok { dataType := .float64, shape := a.shape, float64Values := a.flatten }
  | .bytes a =>
    match recodeAll a.flatten with
    | .error e => .error e
    | .ok vs => .ok { dataType := .bytes, shape := a.shape, bytesValues := vs }
  | .other _ a => .ok { dataType := .bytes, shape := a.shape, bytesValues := a.flatten.map String.toUTF8 }

/-- A value of a metric; `P` are the messages structured values write themselves as. Numbers are those `float` takes; what it does not
take has a text. (writers/metrics_plots_and_validations_writer.py 314–338) -/
inductive Value (P : Type) where
  | structured (p : P)
  | bytes (b : ByteArray)
  | text (s : String)
  | array (a : NArray)
  | number (x : Fl)
  | noNumber (text : String)

/-- proto/metrics_for_slice.proto 220–240 `MetricValue`: the member that is set (the message of an error is left out). -/
inductive Written (P : Type) where
  | structured (p : P)
  | bytesValue (b : ByteArray)
  | arrayValue (m : Msg)
  | doubleValue (x : Fl)
  | unknownType (text : ByteArray)

/-- writers/metrics_plots_and_validations_writer.py 314–338 `convert_metric_value_to_proto`. -/
def convertValue {P : Type} : Value P → Except Err (Written P)
  | .structured p => .ok (.structured p)
  | .bytes b => .ok (.bytesValue b)
  | .text s => .ok (.bytesValue s.toUTF8)
  | .array a =>
    match convertArray a with
    | .error e => .error e
    | .ok m => .ok (.arrayValue m)
  | .number x => .ok (.doubleValue x)
  | .noNumber s => .ok (.unknownType s.toUTF8)

end ArrayValues
end TFMA
