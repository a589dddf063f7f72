import Mathlib.Algebra.Order.Floor.Ring
import Mathlib.Data.Rat.Floor
import Verif.Py.Basic

/-!
# Predictions of TFLite and TFJS models

extractors/tflite_predict_extractor.py 55–213 and extractors/tfjs_predict_extractor.py 83–258.

The features of a batch are arrays with a row per example.  A row is None or an array, of which the number of dimensions and the
elements (in row major order, None for missing ones) are kept.  Numbers are exact; conversions between number types are not
modelled except the truncation to integers when quantizing (values outside the range of the integer type are not modelled).
-/

namespace TFMA
namespace TFLite

variable {X : Type}

/-- An element of a tensor. -/
inductive Elem where
  | num (q : ℚ)
  | text (s : String)
  deriving DecidableEq, Repr

/-- The types told apart in tflite_predict_extractor.py 154: -1 is the default of the first two, the empty text of the
others; only texts can hold it. -/
inductive DType where
  | float32 | int64 | otherInteger | otherFloat | text
  deriving DecidableEq, Repr

/-- One row of a feature. (tflite_predict_extractor.py 149–153) -/
structure Row where
  ndim : ℕ
  elems : List (Option Elem)
  deriving DecidableEq, Repr

/-- The features of a batch. -/
abbrev Features := Dict String (List (Option Row))

/-- `get_input_details()` of one input: its current shape is `batch` followed by `tail`.  The quantization parameters are one
scale and one zero point, or missing. (tflite_predict_extractor.py 138–147, 178) -/
structure Input where
  name : String
  batch : ℕ
  tail : List ℕ
  dtype : DType
  quant : Option (ℚ × ℚ)
  deriving DecidableEq, Repr

/-- `get_output_details()` of one output. (tflite_predict_extractor.py 139, 191–198) -/
structure Output where
  name : String
  quant : Option (ℚ × ℚ)
  deriving DecidableEq, Repr

/-- A tensor: the elements of each row. -/
abbrev Tensor := List (List Elem)

/-- tf.lite.Interpreter: its inputs with their current shapes, its outputs, and what invoking it computes of the input tensors
(in the order of the inputs) for the output tensors. (tflite_predict_extractor.py 65–72, 188) -/
structure Interpreter where
  inputs : List Input
  outputs : List Output
  invoke : List Tensor → List Tensor

/-- `str.split(":")[0]`. -/
def beforeColon (s : List Char) : List Char := s.takeWhile (· ≠ ':')

/-- The text after the prefix, if it starts with it. -/
def dropPrefix : List Char → List Char → Option (List Char)
  | [], s => some s
  | _ :: _, [] => none
  | a :: p, b :: s => if a = b then dropPrefix p s else none

/-- tflite_predict_extractor.py 78–97 `_get_input_name_from_input_detail`. -/
def inputName (name : String) : String :=
  String.ofList (beforeColon ((dropPrefix "serving_default_".toList name.toList).getD name.toList))

/-- The product of the dimensions of a row. (tflite_predict_extractor.py 146) -/
def width (tail : List ℕ) : ℕ := tail.prod

/-- tflite_predict_extractor.py 153–155: `np.full(input_shape, default, dtype)`; the empty text cannot be converted to a number. -/
def defaultRow (i : Input) : Except Err (List Elem) :=
  match i.dtype with
  | .float32 | .int64 => .ok (List.replicate (width i.tail) (.num (-1)))
  | .text => .ok (List.replicate (width i.tail) (.text ""))
  | _ => if width i.tail = 0 then .ok [] else .error .valueError

/-- The elements, if none is missing. -/
def present : List (Option Elem) → Option (List Elem)
  | [] => some []
  | none :: _ => none
  | some e :: es => (present es).map (e :: ·)

/-- tflite_predict_extractor.py 149–163, one example of one input. -/
def rowFor (i : Input) (row : Option Row) : Except Err (List Elem) :=
  match row with
  | none => defaultRow i
  | some r => match present r.elems with
    | none => defaultRow i
    | some es => if es.length = width i.tail then .ok es else .error .valueError

/-- tflite_predict_extractor.py 149–152; indexing a shorter array raises IndexError. -/
def valueAt (feature : Option (List (Option Row))) (idx : ℕ) : Except Err (Option Row) :=
  match feature with
  | none => .ok none
  | some rows => match rows[idx]? with
    | none => .error .indexError
    | some r => .ok r

/-- tflite_predict_extractor.py 148–164: `range(batch_size)`. -/
def rowsFor (i : Input) (feature : Option (List (Option Row))) : ℕ → ℕ → Except Err Tensor
  | _, 0 => .ok []
  | idx, n + 1 =>
    match valueAt feature idx with
    | .error e => .error e
    | .ok row => match rowFor i row with
      | .error e => .error e
      | .ok x => match rowsFor i feature (idx + 1) n with
        | .error e => .error e
        | .ok xs => .ok (x :: xs)

/-- tflite_predict_extractor.py 141–174, the loop over the inputs: the tensors by name and the inputs after resizing.  A second
input of the same name finds an array instead of a list; `np.concatenate` of no rows raises ValueError. -/
def gather (features : Features) (n : ℕ) : List Input → Dict String Tensor → Except Err (Dict String Tensor × List Input)
  | [], acc => .ok (acc, [])
  | i :: is, acc =>
    let name := inputName i.name
    if Dict.has acc name && n != 0 then .error .attributeError
    else match rowsFor i (Dict.get? features name) 0 n with
      | .error e => .error e
      | .ok rows =>
        if n = 0 then .error .valueError
        else match gather features n is (Dict.set acc name rows) with
          | .error e => .error e
          | .ok (acc', is') => .ok (acc', (if i.batch = n then i else { i with batch := n }) :: is')

/-- Rounding towards zero. (python builtin) -/
def truncate (q : ℚ) : ℤ := if 0 ≤ q then ⌊q⌋ else ⌈q⌉

/-- `astype(dtype)`. (tflite_predict_extractor.py 118) -/
def cast (t : DType) (q : ℚ) : ℚ :=
  match t with
  | .int64 | .otherInteger => truncate q
  | _ => q

/-- tflite_predict_extractor.py 108–118 `_quantize`. -/
def quantize (quant : Option (ℚ × ℚ)) (t : DType) : Elem → Except Err Elem
  | .num q => match quant with
    | none => .ok (.num q)
    | some (scale, zero) => .ok (.num (cast t (q / scale + zero)))
  | .text s => match quant with
    | none => .ok (.text s)
    | some _ => .error .typeError

/-- tflite_predict_extractor.py 100–106 `_dequantize`; texts cannot be converted to float64. -/
def dequantize (quant : Option (ℚ × ℚ)) : Elem → Except Err Elem
  | .num q => match quant with
    | none => .ok (.num q)
    | some (scale, zero) => .ok (.num ((q - zero) * scale))
  | .text _ => .error (match quant with
    | none => .valueError
    | some _ => .typeError)

/-- Applying a function to all elements. -/
def mapE {α β : Type} (f : α → Except Err β) : List α → Except Err (List β)
  | [] => .ok []
  | x :: xs => match f x with
    | .error e => .error e
    | .ok y => match mapE f xs with
      | .error e => .error e
      | .ok ys => .ok (y :: ys)

/-- tflite_predict_extractor.py 176–187: `set_tensor`, which refuses a tensor of another shape than the allocated one. -/
def setTensors (tensors : Dict String Tensor) : List Input → Except Err (List Tensor)
  | [] => .ok []
  | i :: is => match Dict.get? tensors (inputName i.name) with
    | none => .error .keyError
    | some t =>
      match mapE (mapE (quantize i.quant i.dtype)) t with
      | .error e => .error e
      | .ok q =>
        if q.length ≠ i.batch then .error .valueError
        else match setTensors tensors is with
          | .error e => .error e
          | .ok rest => .ok (q :: rest)

/-- tflite_predict_extractor.py 190–198: the outputs by name (`_post_process_result` is the identity). -/
def readOutputs : List Output → List Tensor → Dict String Tensor → Except Err (Dict String Tensor)
  | [], _, acc => .ok acc
  | _ :: _, [], _ => .error .valueError
  | o :: os, t :: ts, acc => match mapE (mapE (dequantize o.quant)) t with
    | .error e => .error e
    | .ok v => readOutputs os ts (Dict.set acc o.name v)

/-- What is stored for one model: the only output, or the outputs by name. (tflite_predict_extractor.py 204–205) -/
inductive Pred where
  | single (t : Tensor)
  | byOutput (d : Dict String Tensor)
  deriving DecidableEq

/-- tflite_predict_extractor.py 200–205. -/
def toPred (n : ℕ) (outputs : Dict String Tensor) : Except Err Pred :=
  if outputs.any fun o => o.2.length != n then .error .valueError
  else match outputs with
    | [(_, t)] => .ok (.single t)
    | _ => .ok (.byOutput outputs)

/-- tflite_predict_extractor.py 136–205 for one model: the predictions and the interpreter afterwards. -/
def predict (features : Features) (n : ℕ) (m : Interpreter) : Except Err (Pred × Interpreter) :=
  match gather features n m.inputs [] with
  | .error e => .error e
  | .ok (tensors, inputs) => match setTensors tensors inputs with
    | .error e => .error e
    | .ok ts => match readOutputs m.outputs (m.invoke ts) [] with
      | .error e => .error e
      | .ok outs => match toPred n outs with
        | .error e => .error e
        | .ok p => .ok (p, { m with inputs := inputs })

/-- The predictions of a batch: of the only model, or by model name. (tflite_predict_extractor.py 207–212) -/
inductive Stored where
  | one (p : Pred)
  | byModel (d : Dict String Pred)
  deriving DecidableEq

/-- A batch of extracts: features, predictions if there are some already, and the other entries. -/
structure Extracts (X : Type) where
  features : Features
  predictions : Option Stored
  others : Dict String X

/-- utils/util.py 392–436 `batch_size` of the features: None if there is none. -/
def featureSize : Features → Except Err (Option ℕ)
  | [] => .ok none
  | (_, rows) :: rest => match featureSize rest with
    | .error e => .error e
    | .ok none => .ok (some rows.length)
    | .ok (some n) => if n = rows.length then .ok (some n) else .error .valueError

/-- tflite_predict_extractor.py 210–212: adding to the dictionary of the predictions of the models. -/
def store (name : String) (p : Pred) : Option Stored → Except Err Stored
  | none => .ok (.byModel [(name, p)])
  | some (.byModel d) => .ok (.byModel (Dict.set d name p))
  | some (.one _) => .error .indexError

/-- tflite_predict_extractor.py 129–212, the loop over the model specs (given by their names), with the predictions stored so
far and the interpreters by model name. -/
def specLoop (features : Features) (n : ℕ) (many : Bool) : List String → Option Stored → Dict String Interpreter →
    Except Err (Option Stored × Dict String Interpreter)
  | [], stored, ms => .ok (stored, ms)
  | name :: rest, stored, ms =>
    let key := if many then name else ""
    match Dict.get? ms key with
    | none => .error .valueError
    | some m => match predict features n m with
      | .error e => .error e
      | .ok (p, m') =>
        if many then match store name p stored with
          | .error e => .error e
          | .ok s => specLoop features n many rest (some s) (Dict.set ms key m')
        else specLoop features n many rest (some (.one p)) (Dict.set ms key m')

/-- tflite_predict_extractor.py 120–213 `_batch_reducible_process`: the result and the interpreters afterwards.  Without features
there is no batch size and `range(None)` raises TypeError (if some model has an input). -/
def process (specs : List String) (ms : Dict String Interpreter) (e : Extracts X) :
    Except Err (Extracts X × Dict String Interpreter) :=
  match featureSize e.features with
  | .error er => .error er
  | .ok none => .error .typeError
  | .ok (some n) =>
    match specLoop e.features n (decide (1 < specs.length)) specs e.predictions ms with
    | .error er => .error er
    | .ok (stored, ms') => .ok ({ e with predictions := stored }, ms')

/-! ### TFJS -/

/-- An input of a TFJS model: its name, the first dimension if it is known (-1 otherwise) and the other dimensions.
(tfjs_predict_extractor.py 94–98; an unknown dimension elsewhere is left out) -/
structure JsInput where
  name : String
  first : Option ℕ
  tail : List ℕ
  deriving DecidableEq, Repr

/-- A TFJS model: inputs and output names of its signature and what the binary computes of the input tensors.
(tfjs_predict_extractor.py 83–109, 165–231; a status other than 0
of the binary raises ValueError) -/
structure JsModel where
  inputs : List JsInput
  outputs : List String
  run : List Tensor → Except Err (List Tensor)

/-- Cutting a list of elements into rows. -/
def chunks (w : ℕ) (l : List Elem) : ℕ → Tensor
  | 0 => []
  | n + 1 => l.take w :: chunks w (l.drop w) n

/-- tfjs_predict_extractor.py 153–160: the rank test and `np.reshape(i, dim)`; a dimension of 0 leaves an unknown one
undetermined.  Rows with missing elements are left out (TypeError). -/
def jsRow (i : JsInput) (r : Row) : Except Err Tensor :=
  if i.tail.length + 1 < r.ndim then .error .valueError
  else match present r.elems with
    | none => .error .typeError
    | some es => match i.first with
      | some k => if es.length = k * width i.tail then .ok (chunks (width i.tail) es k) else .error .valueError
      | none =>
        if width i.tail = 0 then .error .valueError
        else if es.length % width i.tail = 0 then .ok (chunks (width i.tail) es (es.length / width i.tail))
        else .error .valueError

/-- tfjs_predict_extractor.py 151–161, one input: the rows of all examples, one after the other.  A missing row (None) has no
dimension and cannot be reshaped unless the shape has one element; that case is left out (TypeError). -/
def jsRows (i : JsInput) : List (Option Row) → Except Err Tensor
  | [] => .ok []
  | none :: _ => .error .typeError
  | some r :: rest => match jsRow i r with
    | .error e => .error e
    | .ok t => match jsRows i rest with
      | .error e => .error e
      | .ok ts => .ok (t ++ ts)

/-- `k.split(":")[0]`. (tfjs_predict_extractor.py 145, 234) -/
def jsName (name : String) : String := String.ofList (beforeColon name.toList)

/-- tfjs_predict_extractor.py 143–163: all inputs; `np.concatenate` of no rows raises ValueError. -/
def jsGather (features : Features) : List JsInput → Except Err (List Tensor)
  | [] => .ok []
  | i :: is => match Dict.get? features (jsName i.name) with
    | none => .error .valueError
    | some rows => match (if rows = [] then .error .valueError else jsRows i rows) with
      | .error e => .error e
      | .ok t => match jsGather features is with
        | .error e => .error e
        | .ok ts => .ok (t :: ts)

/-- tfjs_predict_extractor.py 233–243: the outputs under their names without what follows a colon. -/
def jsOutputs : List String → List Tensor → Dict String Tensor → Dict String Tensor
  | o :: os, t :: ts, acc => jsOutputs os ts (Dict.set acc (jsName o) t)
  | _, _, acc => acc

/-- tfjs_predict_extractor.py 143–250 for one model. -/
def jsPredict (features : Features) (n : ℕ) (m : JsModel) : Except Err Pred :=
  match jsGather features m.inputs with
  | .error e => .error e
  | .ok ts => match m.run ts with
    | .error e => .error e
    | .ok outs => toPred n (jsOutputs m.outputs outs [])

end TFLite
end TFMA
