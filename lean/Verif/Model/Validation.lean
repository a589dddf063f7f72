import Verif.Py.Float
import Verif.Beam.Combine
import Verif.Model.Slicer
import Verif.Model.MetricKeys
import Mathlib.Data.Finset.Image
import Mathlib.Data.Finset.Prod

/-!
# Model of evaluators/metrics_validator.py and CombineValidations

All line numbers without file refer to /repo/tensorflow_model_analysis/evaluators/metrics_validator.py.
-/

namespace TFMA
namespace Validation

open Slicer MetricKeys

/-- config.proto 380–394 `MetricDirection`. -/
inductive Direction where
  | unknown
  | lowerIsBetter
  | higherIsBetter
deriving DecidableEq, Repr

/-- config.proto 396–415: `GenericValueThreshold` and `GenericChangeThreshold`; an unset wrapper message is `none`. -/
inductive Threshold where
  | value (lower upper : Option Fl)
  | change (absolute relative : Option Fl) (direction : Direction)
deriving DecidableEq

/-- `threshold.SerializeToString()`: both messages have a wrapped double in the fields 1 and 2 and an unset (zero) enum
is not written, so the bytes do not tell a value threshold from a change threshold without direction.
(evaluators/metrics_validator.py 171–173, 210–212) -/
def Threshold.bytes : Threshold → Option Fl × Option Fl × Direction
  | .value l u => (l, u, .unknown)
  | .change a r d => (a, r, d)

/-- A slicing spec or cross slicing spec as python object.  The specs are assumed to be valid: `SingleSliceSpec(spec=...)`
(slicer_lib.py 96–156) raises for a column that is also a feature. -/
inductive SliceSpec where
  | single (s : Spec)
  | cross (baseline : Spec) (slicing : List Spec)

/-- A `SingleSliceSpec` up to `__eq__` (slicer_lib.py 81–94): two frozensets. -/
abbrev SingleKey := Finset String × Finset (String × CVal)

/-- slicer_lib.py 81–94. -/
def specKey (s : Spec) : SingleKey := (s.columns.toFinset, (s.features.map canonE).toFinset)

/-- A `SingleSliceSpec` or `CrossSliceSpec` (a named tuple) up to `==`. (slicer/slicer_lib.py 81–94, 285–317) -/
inductive HashKey where
  | single (k : SingleKey)
  | cross (b : SingleKey) (cs : List SingleKey)
deriving DecidableEq

/-- slicer_lib.py 319–343 `deserialize_slice_spec`, up to `==`. -/
def SliceSpec.hashKey : SliceSpec → HashKey
  | .single s => .single (specKey s)
  | .cross b cs => .cross (specKey b) (cs.map specKey)

/-- slicer_lib.py 578–639: a slice key or a cross slice key. -/
inductive Key where
  | ordinary (k : SliceKey)
  | cross (baseline comparison : SliceKey)

/-- slicer/slicer_lib.py 637–639. -/
def Key.isCross : Key → Bool
  | .ordinary _ => false
  | .cross _ _ => true

/-- A metric value: what `float(metric)` gives. (evaluators/metrics_validator.py 57) -/
inductive MetricValue where
  | num (x : Fl)
  | raises (e : Err)
deriving DecidableEq

/-- `float(metric)`. (evaluators/metrics_validator.py 57) -/
def MetricValue.float : MetricValue → Except Err Fl
  | .num x => .ok x
  | .raises e => .error e

/-- evaluators/metrics_validator.py 111–190: the metrics of a slice. -/
abbrev Metrics := Dict MetricKey MetricValue

/-- 66–76, 92–101: comparison with a bound for a direction. -/
def onGoodSide (d : Direction) (x bound : Fl) : Except Err Bool :=
  match d with
  | .lowerIsBetter => .ok (x.le bound)
  | .higherIsBetter => .ok (bound.le x)
  | .unknown => .error .valueError

/-- `math.isclose(x, 0.0)`: only zero is close to zero (the absolute tolerance is 0).
(evaluators/metrics_validator.py 85) -/
def isZero : Fl → Bool
  | .fin q => decide (q = 0)
  | _ => false

/-- 81–90: the relative change; NaN if the baseline is zero. -/
def ratio (diff baseline : Fl) : Fl := if isZero baseline then .nan else diff.div baseline

/-- 63–76. -/
def checkAbsolute (a : Option Fl) (d : Direction) (diff : Fl) : Except Err Bool :=
  match a with
  | some bound => onGoodSide d diff bound
  | none => .ok true

/-- 81–83 `float(metrics[key.make_baseline_key(baseline_model_name)])`. -/
def baselineValue (baseline : Option String) (metrics : Metrics) (key : MetricKey) : Except Err Fl :=
  match baseline with
  | none => .error .keyError
  | some b => match Dict.get? metrics (key.makeBaselineKey b) with
    | none => .error .keyError
    | some m => m.float

/-- 80–103. -/
def checkRelative (baseline : Option String) (metrics : Metrics) (key : MetricKey) (r : Option Fl) (d : Direction)
    (diff : Fl) : Except Err Bool :=
  match r with
  | some bound => do
    let b ← baselineValue baseline metrics key
    onGoodSide d (ratio diff b) bound
  | none => .ok true

/-- 53–104 `_check_threshold`. -/
def checkThreshold (baseline : Option String) (metrics : Metrics) (key : MetricKey) (t : Threshold) (m : MetricValue) :
    Except Err Bool := do
  let x ← m.float
  match t with
  | .value l u => return (l.getD .ninf).le x && x.le (u.getD .pinf)
  | .change a r d =>
    let ra ← checkAbsolute a d x
    let rr ← checkRelative baseline metrics key r d x
    return ra && rr

/-- slicer_lib.py 560–575 `is_cross_slice_applicable`. -/
def crossApplicable (c : NumCodec) (b : Spec) (cs : List Spec) (baseline comparison : SliceKey) : Bool :=
  b.isSliceApplicable c baseline && cs.any (fun s => s.isSliceApplicable c comparison)

/-- 141–156: the threshold is checked for the slice. -/
def applies (c : NumCodec) (key : Key) : Option SliceSpec → Bool
  | none => !key.isCross
  | some (.single s) => match key with
    | .ordinary k => s.isSliceApplicable c k
    | .cross _ _ => false
  | some (.cross b cs) => match key with
    | .ordinary _ => false
    | .cross x y => crossApplicable c b cs x y

/-- 193–207: the threshold counts for the slice when its metric is missing. -/
def appliesMissing (c : NumCodec) (key : Key) : Option SliceSpec → Bool
  | none => !key.isCross
  | some (.single _) => !key.isCross
  | some (.cross b cs) => match key with
    | .ordinary _ => false
    | .cross x y => crossApplicable c b cs x y

/-- The messages 160–163 and 215; the empty message of an ordinary failure. -/
inductive Message where
  | none
  | invalid
  | notFound
deriving DecidableEq, Repr

/-- validation_result.proto 22–28 `ValidationFailure`; the conversion of the metric key to a proto is left out. -/
structure Failure where
  key : MetricKey
  value : Option Fl
  threshold : Threshold
  message : Message
deriving DecidableEq

/-- validation_result.proto 30–37 `SlicingDetails`. -/
structure Detail where
  spec : SliceSpec
  count : ℤ

/-- validation_result.proto 54–82 `ValidationResult`; the slice keys are kept as they are (their conversion is
modelled in Verif.Model.SliceKeys). -/
structure Result where
  ok : Bool
  perSlice : List (Key × List Failure) := []
  details : List Detail := []
  missingThresholds : Bool := false
  missingSlices : List Spec := []
  missingCross : List (Spec × List Spec) := []
  rubberStamp : Bool := false

/-- 182–189: the spec written to the details. -/
def detailSpec : Option SliceSpec → SliceSpec
  | none => .single ⟨[], []⟩
  | some s => s

/-- 157–166: a ValueError is a failed check. -/
def tryCheck (baseline : Option String) (metrics : Metrics) (key : MetricKey) (t : Threshold) (m : MetricValue) :
    Except Err (Bool × Message) :=
  match checkThreshold baseline metrics key t m with
  | .ok b => .ok (b, .none)
  | .error .valueError => .ok (false, .invalid)
  | .error e => .error e

/-- evaluators/metrics_validator.py 35–190: a threshold with the slices it is for (None: all ordinary ones). -/
abbrev SliceThreshold := Option SliceSpec × Threshold

/-- 140–190: the thresholds of one metric. -/
def checkMetric (c : NumCodec) (baseline : Option String) (metrics : Metrics) (sliceKey : Key) (key : MetricKey)
    (m : MetricValue) : List SliceThreshold → (seen : List (Option Fl × Option Fl × Direction)) →
    Except Err (List Failure × List Detail)
  | [], _ => .ok ([], [])
  | (s, t) :: rest, seen =>
    if !applies c sliceKey s then checkMetric c baseline metrics sliceKey key m rest seen
    else do
      let (b, msg) ← tryCheck baseline metrics key t m
      if b then do
        let (fs, ds) ← checkMetric c baseline metrics sliceKey key m rest seen
        return (fs, ⟨detailSpec s, 1⟩ :: ds)
      else if t.bytes ∈ seen then checkMetric c baseline metrics sliceKey key m rest seen
      else do
        let x ← m.float
        let (fs, ds) ← checkMetric c baseline metrics sliceKey key m rest (t.bytes :: seen)
        return (⟨key, some x, t, msg⟩ :: fs, ⟨detailSpec s, 1⟩ :: ds)

/-- evaluators/metrics_validator.py 35–190: the thresholds per metric key. -/
abbrev Thresholds := Dict MetricKey (List SliceThreshold)

/-- 127–190: the loop over the metrics. -/
def checkMetrics (c : NumCodec) (baseline : Option String) (all : Metrics) (thresholds : Thresholds) (sliceKey : Key) :
    Metrics → Except Err (List Failure × List Detail)
  | [] => .ok ([], [])
  | (key, m) :: rest =>
    match Dict.get? thresholds key with
    | none => checkMetrics c baseline all thresholds sliceKey rest
    | some ts =>
      if baseline = some key.modelName then checkMetrics c baseline all thresholds sliceKey rest
      else do
        let (fs, ds) ← checkMetric c baseline all sliceKey key m ts []
        let (fs', ds') ← checkMetrics c baseline all thresholds sliceKey rest
        return (fs ++ fs', ds ++ ds')

/-- 196–217: the failures of one metric that is missing. -/
def missingMetric (c : NumCodec) (sliceKey : Key) (key : MetricKey) :
    List SliceThreshold → (seen : List (Option Fl × Option Fl × Direction)) → List Failure
  | [], _ => []
  | (s, t) :: rest, seen =>
    if !appliesMissing c sliceKey s then missingMetric c sliceKey key rest seen
    else if t.bytes ∈ seen then missingMetric c sliceKey key rest seen
    else ⟨key, none, t, .notFound⟩ :: missingMetric c sliceKey key rest (t.bytes :: seen)

/-- 191–217: the thresholds whose metric is missing. -/
def missingMetrics (c : NumCodec) (baseline : Option String) (sliceKey : Key) : Thresholds → List Failure
  | [] => []
  | (key, ts) :: rest =>
    if baseline = some key.modelName then missingMetrics c baseline sliceKey rest
    else missingMetric c sliceKey key ts [] ++ missingMetrics c baseline sliceKey rest

/-- 35–230 `validate_metrics`.  The thresholds are those that metric_specs.metric_thresholds_from_metrics_specs
returns. -/
def validate (c : NumCodec) (baseline : Option String) (thresholds : Thresholds) (sliceKey : Key) (metrics : Metrics) :
    Except Err Result := do
  let (fs, ds) ← checkMetrics c baseline metrics thresholds sliceKey metrics
  let unchecked := thresholds.filter fun kv => !Dict.has metrics kv.1
  let failures := fs ++ missingMetrics c baseline sliceKey unchecked
  return { ok := failures.isEmpty, perSlice := if failures.isEmpty then [] else [(sliceKey, failures)], details := ds }

/-! ### Combination of the results of all slices -/

/-- 240, 256: `slicer.deserialize_slice_spec(details.slicing_spec)`: reading `slicing_spec` of a message that has
`cross_slicing_spec` set gives the default, the overall slice. -/
def Detail.hashKey (d : Detail) : HashKey :=
  match d.spec with
  | .single s => .single (specKey s)
  | .cross _ _ => .single (∅, ∅)

/-- 233–245 `_hashed_slicing_details`: the first detail of each key, in order. -/
def hashed : List Detail → Dict HashKey Detail → Dict HashKey Detail
  | [], acc => acc
  | d :: ds, acc => hashed ds (if Dict.has acc d.hashKey then acc else Dict.set acc d.hashKey d)

/-- 256–263: the loop over the details of `a`. -/
def mergeInto : List Detail → Dict HashKey Detail → List Detail × Dict HashKey Detail
  | [], h => ([], h)
  | d :: ds, h =>
    match Dict.get? h d.hashKey with
    | some d' =>
      let r := mergeInto ds (Dict.del h d.hashKey)
      ({ d with count := d.count + d'.count } :: r.1, r.2)
    | none =>
      let r := mergeInto ds h
      (d :: r.1, r.2)

/-- 248–265 `merge_details`. -/
def mergeDetails (a b : List Detail) : List Detail :=
  let r := mergeInto a (hashed b [])
  r.1 ++ r.2.map Prod.snd

/-- writers/metrics_plots_and_validations_writer.py 687–701 `add_input`. -/
def addResult (acc : Option Result) (x : Option Result) : Option Result :=
  match x with
  | none => none
  | some x =>
    let r := acc.getD { ok := true }
    some { r with ok := r.ok && x.ok, perSlice := r.perSlice ++ x.perSlice, details := mergeDetails r.details x.details }

/-- The loop body of writer 706–722 `merge_accumulators`. -/
def plus (acc : Option Result) (x : Option Result) : Option Result :=
  match x with
  | none => acc
  | some x =>
    let r := acc.getD { ok := true }
    some { r with ok := r.ok && x.ok, perSlice := r.perSlice ++ x.perSlice, details := mergeDetails r.details x.details }

/-- writer 672–752 `CombineValidations`.  `validate_metrics` never returns None, so the inputs are results. -/
def combiner : Beam.CombineFn Result (Option Result) where
  create := none
  addInput acc x := .ok (addResult acc (some x))
  merge := Beam.mergeWith plus

/-- 293–303: the specs of one metric; the dictionary of details holds the keys that are not missing. -/
def missingSpecs : List SliceThreshold → (present : List HashKey) → List SliceSpec × List HashKey
  | [], present => ([], present)
  | (s, _) :: rest, present =>
    let spec := detailSpec s
    if spec.hashKey ∈ present then missingSpecs rest present
    else
      let r := missingSpecs rest (spec.hashKey :: present)
      (spec :: r.1, r.2)

/-- 288–304: the loop of `get_missing_slices`. -/
def missingLoop (baseline : Option String) : Thresholds → (present : List HashKey) → List SliceSpec
  | [], _ => []
  | (key, ts) :: rest, present =>
    if baseline = some key.modelName then missingLoop baseline rest present
    else
      let r := missingSpecs ts present
      r.1 ++ missingLoop baseline rest r.2

/-- 268–304 `get_missing_slices`. -/
def missingSlices (baseline : Option String) (thresholds : Thresholds) (details : List Detail) : List SliceSpec :=
  missingLoop baseline thresholds (Dict.keys (hashed details []))

/-- writer 738–747: the specs that are of type `SlicingSpec`. -/
def SliceSpec.asSingle : SliceSpec → Option Spec
  | .single s => some s
  | .cross _ _ => none

/-- writer 738–747: the specs that are of type `CrossSlicingSpec`. -/
def SliceSpec.asCross : SliceSpec → Option (Spec × List Spec)
  | .single _ => none
  | .cross b cs => some (b, cs)

/-- writer 724–752 `extract_output`. -/
def extract (baseline : Option String) (thresholds : Thresholds) (rubberStamp : Bool) (acc : Option Result) : Result :=
  let r := acc.getD { ok := false }
  let r := if thresholds = [] then { r with ok := rubberStamp, missingThresholds := !rubberStamp } else r
  let missing := missingSlices baseline thresholds r.details
  let r := if missing = [] then r else { r with
    ok := false
    missingSlices := r.missingSlices ++ missing.filterMap SliceSpec.asSingle
    missingCross := r.missingCross ++ missing.filterMap SliceSpec.asCross }
  if rubberStamp then { r with rubberStamp := true } else r

end Validation
end TFMA
