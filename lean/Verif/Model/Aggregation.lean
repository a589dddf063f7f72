import Verif.Model.MetricKeys
import Verif.Model.MultiClass
import Verif.Py.Float
import Verif.Beam.Combine

/-!
# Aggregation of per class metrics

metrics/aggregation.py.  A metric value is a float; a value that `float(..)` rejects is `none`.
-/

namespace TFMA
namespace Aggregation

open MetricKeys Beam

/-- The metrics dictionary passed to a derived metric. (aggregation.py 267–275) -/
abbrev Metrics := Dict MetricKey (Option Fl)

/-- aggregation.py 267–275 `_to_float(metrics[key])`. -/
def value (metrics : Metrics) (k : MetricKey) : Except Err Fl :=
  match Dict.get? metrics k with
  | none => .error .keyError
  | some none => .error .valueError
  | some (some v) => .ok v

/-- aggregation.py 122–138 (and 225–241): the child key, under its private name unless found. -/
def childKey (metrics : Metrics) (name model output : String) (sk : Option SubKey) (ew : Bool) : MetricKey :=
  let k : MetricKey := { name := name, modelName := model, outputName := output, subKey := sk, exampleWeighted := some ew }
  if Dict.has metrics k then k else { k with name := "_" ++ name }

/-- aggregation.py 140–144: class id, else k. -/
def offset (sk : Option SubKey) : Option ℤ :=
  match sk with
  | none => none
  | some s => match s.classId with
    | some c => some c
    | none => s.k

/-- `not class_weights`. (aggregation.py 122–138) -/
def noWeights (cw : Option (Dict ℤ ℚ)) : Bool := match cw with
  | none => true
  | some d => d.isEmpty

/-- aggregation.py 139–146: the weight of a sub key.  `offset in None` raises TypeError. -/
def macroWeight (cw : Option (Dict ℤ ℚ)) (sk : Option SubKey) : Except Err ℚ :=
  let weight : ℚ := if noWeights cw then 1 else 0
  match offset sk with
  | none => .ok weight
  | some o => match cw with
    | none => .error .typeError
    | some d => match Dict.get? d o with
      | some w => .ok w
      | none => .ok weight

/-- Totals of a weighted average. (aggregation.py 113–152) -/
structure Totals where
  value : Fl
  weight : ℚ
  deriving DecidableEq, Repr

/-- `total_value += value * weight; total_weight += weight`. (aggregation.py 139–146) -/
def Totals.add (t : Totals) (v : Fl) (w : ℚ) : Totals := ⟨t.value.add (v.mul (.fin w)), t.weight + w⟩

/-- `total_value / total_weight if total_weight else nan`. (aggregation.py 113–152) -/
def Totals.average (t : Totals) : Fl := if t.weight = 0 then .nan else t.value.div (.fin t.weight)

/-- Loop over (value, weight) computed in this order. (aggregation.py 113–152, 216–259) -/
def averageLoop {T : Type} (weight : T → Except Err ℚ) (val : T → Except Err Fl) : Totals → List T → Except Err Totals
  | t, [] => .ok t
  | t, x :: xs => do
    let w ← weight x
    let v ← val x
    averageLoop weight val (t.add v w) xs

/-- aggregation.py 121–155 `result` of `macro_average`. -/
def macroAverage (name model output : String) (subKeys : List (Option SubKey)) (cw : Option (Dict ℤ ℚ)) (ew : Bool)
    (metrics : Metrics) : Except Err Fl := do
  let t ← averageLoop (macroWeight cw) (fun sk => value metrics (childKey metrics name model output sk ew))
    ⟨.fin 0, 0⟩ subKeys
  return t.average

/-- aggregation.py 102–109: the key of the macro average. -/
def macroKey (name model output : String) (sk : Option SubKey) (ew : Bool) : MetricKey :=
  { name := name, modelName := model, outputName := output, subKey := sk,
    aggregationType := some ⟨none, some true, none⟩, exampleWeighted := some ew }

/-- aggregation.py 57–75 `result` of `output_average`. -/
def outputAverage (name model : String) (sk : Option SubKey) (outputWeights : Dict String ℚ) (ew : Bool)
    (metrics : Metrics) : Except Err Fl := do
  let t ← averageLoop (fun ow : String × ℚ => .ok ow.2)
    (fun ow => value metrics { name := name, modelName := model, outputName := ow.1, subKey := sk, exampleWeighted := some ew })
    ⟨.fin 0, 0⟩ outputWeights
  return t.average

/-- aggregation.py 242–256: the weight of a sub key; `fromLabels` are the class weights from labels.  Membership is
tested with the class id (None is never a member), the value is read with the offset. -/
def weightedWeight (fromLabels : Dict ℤ ℚ) (cw : Option (Dict ℤ ℚ)) (sk : Option SubKey) : Except Err ℚ :=
  let weight : ℚ := if noWeights cw then 1 else 0
  match offset sk with
  | none => .ok weight
  | some o =>
    let classId := sk.bind SubKey.classId
    let isIn (d : Dict ℤ ℚ) : Bool := match classId with | none => false | some c => Dict.has d c
    let get (d : Dict ℤ ℚ) : Except Err ℚ := match Dict.get? d o with | some w => .ok w | none => .error .keyError
    do
      let weight ← if !fromLabels.isEmpty && isIn fromLabels then get fromLabels else .ok weight
      let weight ← match cw with
        | some d => if !d.isEmpty && isIn d then do pure (weight * (← get d)) else .ok weight
        | none => .ok weight
      return weight

/-- aggregation.py 216–259 `result` of `weighted_macro_average`. -/
def weightedMacroAverage (name model output : String) (subKeys : List (Option SubKey)) (fromLabels : Dict ℤ ℚ)
    (cw : Option (Dict ℤ ℚ)) (ew : Bool) (metrics : Metrics) : Except Err Fl := do
  let t ← averageLoop (weightedWeight fromLabels cw)
    (fun sk => value metrics (childKey metrics name model output sk ew)) ⟨.fin 0, 0⟩ subKeys
  return t.average

/-- aggregation.py 194–201: the key of the weighted macro average (sic: macro_average=True). -/
def weightedMacroKey (name model output : String) (sk : Option SubKey) (ew : Bool) : MetricKey :=
  { name := name, modelName := model, outputName := output, subKey := sk,
    aggregationType := some ⟨none, some true, none⟩, exampleWeighted := some ew }

/-! ### Class weights from labels -/

/-- An example: the label array (None if missing) and the weight. (aggregation.py 351–353) -/
structure LabelExample where
  label : Option (List ℚ)
  weight : ℚ
  deriving DecidableEq, Repr

/-- aggregation.py 317–350 accumulator: weight per class. -/
abbrev WeightAcc := Dict ℤ ℚ

/-- aggregation.py 354–364: how much of the label belongs to a class. -/
def labelValue (label : List ℚ) (c : ℤ) : Except Err ℚ :=
  match label with
  | [x] => .ok (if x = (c : ℚ) then 1 else 0)
  | l => if (l.length : ℤ) ≤ c then .error .valueError else MultiClass.pyGet l c

/-- aggregation.py 353–365, one class id. -/
def classStep (label : List ℚ) (w : ℚ) (a : WeightAcc) (c : ℤ) : Except Err WeightAcc := do
  let v ← labelValue label c
  match Dict.get? a c with
  | some x => return Dict.set a c (x + v * w)
  | none => throw .keyError

/-- aggregation.py 351–365, one example. -/
def labelStep (ids : List ℤ) (a : WeightAcc) (e : LabelExample) : Except Err WeightAcc :=
  match e.label with
  | none => .ok a
  | some l => loop (classStep l e.weight) a ids

/-- aggregation.py 373–375: `result[k] += v`. -/
def weightMergeStep (a : WeightAcc) (e : ℤ × ℚ) : Except Err WeightAcc :=
  match Dict.get? a e.1 with
  | some x => .ok (Dict.set a e.1 (x + e.2))
  | none => .error .keyError

/-- aggregation.py 317–377 `_ClassWeightsFromLabelsCombiner`. -/
def classWeightsCombiner (ids : List ℤ) : CombineFn (Except Err (List LabelExample)) WeightAcc where
  create := ids.foldl (fun d i => Dict.set d i 0) []
  addInput a x := x.bind (loop (labelStep ids) a)
  merge := mergeLoop fun r a => loop weightMergeStep r a

/-- aggregation.py 374–381 `extract_output`. -/
def classWeightsExtract (a : WeightAcc) : Dict ℤ ℚ :=
  let total := (a.map Prod.snd).sum
  a.map fun e => (e.1, if total = 0 then 0 else e.2 / total)

end Aggregation
end TFMA
