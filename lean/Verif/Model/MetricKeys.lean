import Verif.Py.Basic
import Mathlib.Data.List.Sort

/-!
# Metric keys

metrics/metric_types.py 44–469 and proto/metrics_for_slice.proto.
-/

namespace TFMA
namespace MetricKeys

/-- metric_types.py 48–143 `SubKey`, the fields. -/
structure SubKey where
  classId : Option ℤ
  k : Option ℤ
  topK : Option ℤ
  deriving DecidableEq, Repr

/-- metric_types.py 149–247 `AggregationType`, the fields. -/
structure AggregationType where
  microAvg : Option Bool
  macroAvg : Option Bool
  weightedMacro : Option Bool
  deriving DecidableEq, Repr

/-- metric_types.py 253–378 `MetricKey`, the fields (`PlotKey` and `AttributionsKey` have the same ones). -/
structure MetricKey where
  name : String
  modelName : String := ""
  outputName : String := ""
  subKey : Option SubKey := none
  aggregationType : Option AggregationType := none
  exampleWeighted : Option Bool := some false
  isDiff : Bool := false
  deriving DecidableEq, Repr

/-- metric_types.py 62–83 `SubKey.__new__`. -/
def SubKey.new (classId k topK : Option ℤ) : Except Err SubKey :=
  match k with
  | some k =>
    if topK.isSome then .error .valueError
    else if classId.isSome then .error .valueError
    else if k < 1 then .error .valueError
    else .ok ⟨classId, some k, topK⟩
  | none => match topK with
    | some t => if t < 1 then .error .valueError else .ok ⟨classId, none, some t⟩
    | none => .ok ⟨classId, none, none⟩

/-- metric_types.py 172–195 `AggregationType.__new__`: at most one field is true. -/
def AggregationType.new (microAvg macroAvg weightedMacro : Option Bool) : Except Err AggregationType :=
  let n (b : Option Bool) : ℕ := if b = some true then 1 else 0
  if n microAvg + n macroAvg + n weightedMacro > 1 then .error .valueError else .ok ⟨microAvg, macroAvg, weightedMacro⟩

/-! ### Protobuf messages -/

/-- metrics_for_slice.proto 25–33: three optional Int32Value messages. -/
structure SubKeyPb where
  classId : Option ℤ := none
  k : Option ℤ := none
  topK : Option ℤ := none
  deriving DecidableEq, Repr

/-- metrics_for_slice.proto 41–50: a oneof of three booleans. -/
inductive AggregationPb where
  | unset
  | microAvg (b : Bool)
  | macroAvg (b : Bool)
  | weightedMacro (b : Bool)
  deriving DecidableEq, Repr

/-- metrics_for_slice.proto 59–78 (also 400–413 `PlotKey` and 454–470 `AttributionsKey`, which lack some fields).
Strings and booleans default to empty; sub messages have presence. -/
structure MetricKeyPb where
  name : String := ""
  modelName : String := ""
  outputName : String := ""
  subKey : Option SubKeyPb := none
  aggregationType : Option AggregationPb := none
  exampleWeighted : Option Bool := none
  isDiff : Bool := false
  deriving DecidableEq, Repr

/-- Assigning to the value of an Int32Value raises ValueError outside of the 32 bit range. -/
def int32 (x : Option ℤ) : Except Err (Option ℤ) :=
  match x with
  | none => .ok none
  | some v => if -2147483648 ≤ v ∧ v ≤ 2147483647 then .ok (some v) else .error .valueError

/-- metric_types.py 117–126. -/
def SubKey.toProto (s : SubKey) : Except Err SubKeyPb := do
  return ⟨← int32 s.classId, ← int32 s.k, ← int32 s.topK⟩

/-- metric_types.py 128–143 (`HasField`; the default of an absent message is irrelevant). -/
def SubKey.fromProto (pb : SubKeyPb) : Except Err (Option SubKey) :=
  if pb.classId = none ∧ pb.k = none ∧ pb.topK = none then .ok none
  else (SubKey.new pb.classId pb.k pb.topK).map some

/-- metric_types.py 224–233: setting a member of the oneof clears the others. -/
def AggregationType.toProto (a : AggregationType) : AggregationPb :=
  let p0 := AggregationPb.unset
  let p1 := if a.microAvg.isSome then .microAvg true else p0
  let p2 := if a.macroAvg.isSome then .macroAvg true else p1
  if a.weightedMacro.isSome then .weightedMacro true else p2

/-- metric_types.py 235–247. -/
def AggregationType.fromProto (pb : AggregationPb) : Except Err (Option AggregationType) :=
  let microAvg := decide (pb = .microAvg true)
  let macroAvg := decide (pb = .macroAvg true)
  let weighted := decide (pb = .weightedMacro true)
  let orNone (b : Bool) : Option Bool := if b then some true else none
  if microAvg || macroAvg || weighted then
    (AggregationType.new (orNone microAvg) (orNone macroAvg) (orNone weighted)).map some
  else .ok none

/-- metric_types.py 346–347: an absent sub key leaves the message unset. -/
def subKeyPb : Option SubKey → Except Err (Option SubKeyPb)
  | some s => s.toProto.map some
  | none => .ok none

/-- metric_types.py 337–354 `MetricKey.to_proto` (a named tuple of three fields is always true). -/
def MetricKey.toProto (m : MetricKey) : Except Err MetricKeyPb := do
  let sub ← subKeyPb m.subKey
  return {
    name := m.name
    modelName := m.modelName
    outputName := m.outputName
    subKey := sub
    aggregationType := m.aggregationType.map AggregationType.toProto
    exampleWeighted := m.exampleWeighted
    isDiff := m.isDiff }

/-- metric_types.py 356–370 `MetricKey.from_proto` (reading an absent sub message gives an empty one). -/
def MetricKey.fromProto (pb : MetricKeyPb) : Except Err MetricKey := do
  let sub ← SubKey.fromProto (pb.subKey.getD {})
  let agg ← AggregationType.fromProto (pb.aggregationType.getD .unset)
  return {
    name := pb.name
    modelName := pb.modelName
    outputName := pb.outputName
    subKey := sub
    aggregationType := agg
    exampleWeighted := pb.exampleWeighted
    isDiff := pb.isDiff }

/-- metric_types.py 392–408 `PlotKey.to_proto`: neither aggregation type nor is_diff. -/
def MetricKey.plotToProto (m : MetricKey) : Except Err MetricKeyPb := do
  let pb ← m.toProto
  return { pb with aggregationType := none, isDiff := false }

/-- metric_types.py 410–423 `PlotKey.from_proto`. -/
def MetricKey.plotFromProto (pb : MetricKeyPb) : Except Err MetricKey := do
  let sub ← SubKey.fromProto (pb.subKey.getD {})
  return {
    name := pb.name
    modelName := pb.modelName
    outputName := pb.outputName
    subKey := sub
    exampleWeighted := pb.exampleWeighted }

/-- metric_types.py 433–451 `AttributionsKey.to_proto`: no aggregation type. -/
def MetricKey.attributionsToProto (m : MetricKey) : Except Err MetricKeyPb := do
  let pb ← m.toProto
  return { pb with aggregationType := none }

/-- metric_types.py 453–469 `AttributionsKey.from_proto`. -/
def MetricKey.attributionsFromProto (pb : MetricKeyPb) : Except Err MetricKey := do
  let sub ← SubKey.fromProto (pb.subKey.getD {})
  return {
    name := pb.name
    modelName := pb.modelName
    outputName := pb.outputName
    subKey := sub
    exampleWeighted := pb.exampleWeighted
    isDiff := pb.isDiff }

/-- metric_types.py 373–374 `make_diff_key`. -/
def MetricKey.makeDiffKey (m : MetricKey) : MetricKey := { m with isDiff := true }

/-- metric_types.py 377–378 `make_baseline_key`. -/
def MetricKey.makeBaselineKey (m : MetricKey) (model : String) : MetricKey :=
  { m with modelName := model, isDiff := false }

/-! ### Comparison -/

/-- `<` of python tuples of equal or different length. (python builtin, used in metric_types.py 90–94) -/
def tupleLt {α : Type} [LT α] [DecidableLT α] [DecidableEq α] : List α → List α → Bool
  | [], [] => false
  | [], _ :: _ => true
  | _ :: _, [] => false
  | x :: xs, y :: ys => if x = y then tupleLt xs ys else decide (x < y)

/-- metric_types.py 90–94: the tuple compared for a sub key, empty for None. -/
def subKeyTuple (s : Option SubKey) : List ℤ := match s with
  | none => []
  | some s => [s.classId.getD (-1), s.k.getD (-1), s.topK.getD (-1)]

/-- metric_types.py 205–209: the tuple compared for an aggregation type, empty for None. -/
def aggTuple (a : Option AggregationType) : List ℤ :=
  let f (b : Option Bool) : ℤ := match b with | none => -1 | some b => if b then 1 else 0
  match a with
  | none => []
  | some a => [f a.microAvg, f a.macroAvg, f a.weightedMacro]

/-- metric_types.py 314–317 and 325: `example_weighted` is replaced by the empty tuple unless true; comparing the
empty tuple with True raises TypeError. -/
def weightedLt (a b : Option Bool) : Except Err Bool :=
  if a = some true then
    if b = some true then .ok false else .error .typeError
  else
    if b = some true then .error .typeError else .ok false

/-- metric_types.py 306–327 `MetricKey.__lt__`: a conjunction, evaluated from left to right.  (`total_ordering`
replaces nothing because named tuples define all comparisons; `sorted` only uses `<`.) -/
def MetricKey.lt (a b : MetricKey) : Except Err Bool :=
  if tupleLt [a.name, a.modelName, a.outputName] [b.name, b.modelName, b.outputName] then
    if tupleLt (subKeyTuple a.subKey) (subKeyTuple b.subKey) then
      if tupleLt (aggTuple a.aggregationType) (aggTuple b.aggregationType) then do
        if ← weightedLt a.exampleWeighted b.exampleWeighted then
          return !a.isDiff && b.isDiff
        else return false
      else .ok false
    else .ok false
  else .ok false

/-- `sorted(keys)`: insertion sort that only asks whether a later key is less than an earlier one.
(python builtin, used in metrics/metric_types.py 578, 636, 702) -/
def insertKey (x : MetricKey) : List MetricKey → Except Err (List MetricKey)
  | [] => .ok [x]
  | y :: ys => do
    if ← MetricKey.lt y x then return y :: (← insertKey x ys) else return x :: y :: ys

/-- `sorted(keys)`: keys are inserted from the last one on, so that equal keys keep their order.
(python builtin, used in metrics/metric_types.py 578, 636, 702) -/
def sortKeys : List MetricKey → Except Err (List MetricKey)
  | [] => .ok []
  | x :: xs => do insertKey x (← sortKeys xs)

end MetricKeys
end TFMA
