import Verif.Model.Slicer
import Verif.Py.Basic
import Mathlib.Algebra.Order.Field.Basic
import Mathlib.Data.List.Dedup

/-!
# Slice key classification, serialization and the minimum slice size filter
-/

namespace TFMA
namespace Slicer

/-! ### classification -/

/-- Python objects that can be handed to `get_slice_key_type`. (slicer/slicer_lib.py 578–634) -/
inductive PyObj where
  | none
  | str (s : String)
  | bytes (b : List UInt8)
  | int (i : Int)
  | flt (q : ℚ)
  | tuple (l : List PyObj)

namespace PyObj

/-- python truthiness. (python builtin, used in slicer/slicer_lib.py 609–616) -/
def truthy : PyObj → Bool
  | .none => false
  | .str s => !s.toList.isEmpty
  | .bytes b => !b.isEmpty
  | .int i => decide (i ≠ 0)
  | .flt q => decide (q ≠ 0)
  | .tuple l => !l.isEmpty

/-- `iter(x)`: the elements, or TypeError for non-iterables.  A text iterates over one-character texts,
bytes over integers. (python builtin, used in slicer/slicer_lib.py 594–634) -/
def iter : PyObj → Except Err (List PyObj)
  | .none => .error .typeError
  | .str s => .ok (s.toList.map (fun ch => .str (String.singleton ch)))
  | .bytes b => .ok (b.map (fun u => .int u.toNat))
  | .int _ => .error .typeError
  | .flt _ => .error .typeError
  | .tuple l => .ok l

/-- `isinstance(x, (bytes, str))`. (slicer/slicer_lib.py 594–607) -/
def isText : PyObj → Bool
  | .str _ => true
  | .bytes _ => true
  | _ => false

/-- `isinstance(x, (bytes, str)) or isinstance(x, int) or isinstance(x, float)`. (slicer/slicer_lib.py 594–607) -/
def isScalar : PyObj → Bool
  | .str _ => true
  | .bytes _ => true
  | .int _ => true
  | .flt _ => true
  | _ => false

/-- `a, b = x`: ValueError when the number of elements is not two. (slicer/slicer_lib.py 597–634) -/
def unpack2 (x : PyObj) : Except Err (PyObj × PyObj) :=
  match iter x with
  | .error e => .error e
  | .ok [a, b] => .ok (a, b)
  | .ok _ => .error .valueError

/-- slicer_lib.py:594-607 `is_singleton_slice_key_type`. -/
def isSingleton (x : PyObj) : Except Err Bool :=
  match unpack2 x with
  | .error .valueError => .ok false
  | .error e => .error e
  | .ok (col, val) => .ok (isText col && isScalar val)

/-- slicer_lib.py:613-616: the loop of `is_slice_key_type`. -/
def allSingleton : List PyObj → Except Err Bool
  | [] => .ok true
  | x :: xs => match isSingleton x with
    | .error e => .error e
    | .ok false => .ok false
    | .ok true => allSingleton xs

/-- slicer_lib.py:609-616 `is_slice_key_type`. -/
def isSliceKey (x : PyObj) : Except Err Bool :=
  if !truthy x then .ok true
  else match iter x with
    | .error e => .error e
    | .ok l => allSingleton l

end PyObj

/-- The two answers of the classifier. (slicer/slicer_lib.py 578–592) -/
inductive KeyKind where
  | ordinary
  | cross
  deriving DecidableEq, Repr

open PyObj in
/-- slicer_lib.py:578-634 `get_slice_key_type`. -/
def sliceKeyType (x : PyObj) : Except Err KeyKind :=
  match isSliceKey x with
  | .error e => .error e
  | .ok true => .ok .ordinary
  | .ok false =>
    match unpack2 x with
    | .error .valueError => .error .typeError
    | .error e => .error e
    | .ok (b, cmp) =>
      match isSliceKey b with
      | .error e => .error e
      | .ok false => .error .typeError
      | .ok true =>
        match isSliceKey cmp with
        | .error e => .error e
        | .ok false => .error .typeError
        | .ok true => .ok .cross

/-- slicer_lib.py:637-639 `is_cross_slice_key`. -/
def isCrossSliceKey (x : PyObj) : Except Err Bool :=
  match sliceKeyType x with
  | .error e => .error e
  | .ok k => .ok (decide (k = .cross))

/-! ### serialization -/

/-- The protobuf value of one entry: `oneof kind` (proto/metrics_for_slice.proto `SingleSliceKey`). (lines 254–258) -/
inductive ProtoKind where
  | bytesValue (b : ByteArray)
  | floatValue (q : ℚ)
  | int64Value (i : Int)

/-- proto/metrics_for_slice.proto `SingleSliceKey`. (lines 252–259) -/
structure SingleSliceKeyProto where
  column : String
  kind : Option ProtoKind

/-- proto/metrics_for_slice.proto 262–264 `SliceKey`. -/
abbrev SliceKeyProto := List SingleSliceKeyProto

/-- proto/metrics_for_slice.proto `CrossSliceKey`. (lines 270–273) -/
structure CrossSliceKeyProto where
  baseline : SliceKeyProto
  comparison : SliceKeyProto

/-- Numbers of the form m·2^e with |m| < 2^24: every finite IEEE single precision number has this form
(the exponent range is left unbounded). -/
def Single (q : ℚ) : Prop := ∃ m e : ℤ, |m| < 2 ^ 24 ∧ q = (m : ℚ) * (2 : ℚ) ^ e

/-- Storing a python float in a protobuf `float` field: some monotone rounding onto single precision
numbers. (proto/metrics_for_slice.proto 256) -/
structure SingleRounding where
  round : ℚ → ℚ
  single : ∀ q, Single (round q)
  fix : ∀ q, Single q → round q = q
  mono : ∀ a b, a ≤ b → round a ≤ round b

/-- slicer_lib.py:346-375 `serialize_slice_key`, one entry.  Assigning an integer outside the int64 range
to the field raises ValueError. -/
def serializeEntry (R : SingleRounding) (e : Entry) : Except Err SingleSliceKeyProto :=
  match e.2 with
  | .str s => .ok ⟨e.1, some (.bytesValue s.toByteArray)⟩
  | .int i => if -2 ^ 63 ≤ i ∧ i < 2 ^ 63 then .ok ⟨e.1, some (.int64Value i)⟩ else .error .valueError
  | .flt q => .ok ⟨e.1, some (.floatValue (R.round q))⟩

/-- slicer_lib.py:346-375 `serialize_slice_key`. -/
def serializeKey (R : SingleRounding) (k : SliceKey) : Except Err SliceKeyProto :=
  mapE (serializeEntry R) k

/-- slicer_lib.py:403-431 `deserialize_slice_key`, one entry. -/
def deserializeEntry (p : SingleSliceKeyProto) : Except Err Entry :=
  match p.kind with
  | some (.bytesValue b) => match String.fromUTF8? b with
    | some s => .ok (p.column, .str s)
    | none => .error .unicodeError
  | some (.int64Value i) => .ok (p.column, .int i)
  | some (.floatValue q) => .ok (p.column, .flt q)
  | none => .error .typeError

/-- slicer_lib.py:403-431 `deserialize_slice_key`. -/
def deserializeKey (p : SliceKeyProto) : Except Err SliceKey := mapE deserializeEntry p

/-- slicer_lib.py:392-400 `serialize_cross_slice_key`. -/
def serializeCross (R : SingleRounding) (k : SliceKey × SliceKey) : Except Err CrossSliceKeyProto :=
  match serializeKey R k.1 with
  | .error e => .error e
  | .ok b => match serializeKey R k.2 with
    | .error e => .error e
    | .ok cmp => .ok ⟨b, cmp⟩

/-- slicer_lib.py:434-453 `deserialize_cross_slice_key`. -/
def deserializeCross (p : CrossSliceKeyProto) : Except Err (SliceKey × SliceKey) :=
  match deserializeKey p.baseline with
  | .error e => .error e
  | .ok b => match deserializeKey p.comparison with
    | .error e => .error e
    | .ok cmp => .ok (b, cmp)

/-! ### minimum slice size -/

/-- Slice keys as they occur in the evaluator's output collection, up to python equality: ordinary keys
and (baseline, comparison) pairs. (slicer/slicer_lib.py 44–60) -/
inductive SKey where
  | ordinary (k : List (String × CVal))
  | cross (b c : List (String × CVal))
  deriving DecidableEq

/-- `not slice_key`: only the empty tuple is falsy (a cross-slice key is a non-empty tuple).
(slicer/slicer_lib.py 800–821) -/
def SKey.falsy : SKey → Bool
  | .ordinary k => k.isEmpty
  | .cross _ _ => false

/-- What is emitted for a slice: its metrics or the error entry. (slicer/slicer_lib.py 788–821) -/
inductive SliceOut (M : Type) where
  | metrics (m : M)
  | tooSmall
  deriving DecidableEq

/-- Values of a keyed collection under one key. (beam.CoGroupByKey in slicer/slicer_lib.py 755–828) -/
def valuesAt {V : Type} (l : List (SKey × V)) (k : SKey) : List V :=
  (l.filter (fun p => decide (p.1 = k))).map Prod.snd

/-- Counting keys: `beam.combiners.Count.PerElement()` over the fanned out keys
(metrics_plots_and_validations_evaluator.py:858-862). -/
def countPerKey (keys : List SKey) : List (SKey × ℕ) :=
  keys.dedup.map (fun k => (k, keys.count k))

/-- slicer_lib.py:788-821 `FilterOutSmallSlicesDoFn.process` for one key with its co-grouped values. -/
def filterOne {M : Type} (minSize : ℕ) (k : SKey) (values : List M) (counts : List ℕ) :
    Except Err (List (SKey × SliceOut M)) :=
  match values with
  | [] => .ok []
  | v :: _ =>
    if k.falsy then .ok [(k, .metrics v)]
    else match counts with
      | [] => .error .indexError
      | n :: _ => if n ≥ minSize then .ok [(k, .metrics v)] else .ok [(k, .tooSmall)]

/-- `mapE` with list results concatenated. (beam.ParDo in slicer/slicer_lib.py 755–828) -/
def flatMapE {α β : Type} (f : α → Except Err (List β)) : List α → Except Err (List β)
  | [] => .ok []
  | x :: xs => match f x with
    | .error e => .error e
    | .ok ys => match flatMapE f xs with
      | .error e => .error e
      | .ok zs => .ok (ys ++ zs)

/-- slicer_lib.py:755-828 `FilterOutSlices`: CoGroupByKey of the metrics and the counts, then the filter
per key.  An exception in any element fails the pipeline. -/
def filterOutSlices {M : Type} (minSize : ℕ) (values : List (SKey × M)) (counts : List (SKey × ℕ)) :
    Except Err (List (SKey × SliceOut M)) :=
  flatMapE (fun k => filterOne minSize k (valuesAt values k) (valuesAt counts k))
    (values.map Prod.fst ++ counts.map Prod.fst).dedup

/-- metrics_plots_and_validations_evaluator.py:930-938: the filter is applied only for sizes above 1, to
the metrics after cross-slice metrics were added; the counts come from the fanned out examples. -/
def minSizeStage {M : Type} (minSize : ℕ) (values : List (SKey × M)) (fannedOut : List SKey) :
    Except Err (List (SKey × SliceOut M)) :=
  if minSize > 1 then filterOutSlices minSize values (countPerKey fannedOut)
  else .ok (values.map (fun p => (p.1, .metrics p.2)))

end Slicer
end TFMA
