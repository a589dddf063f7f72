import Verif.Model.Slicer
import Verif.Model.MetricKeys
import Verif.Py.DictLemmas

/-!
# The stages of the metrics evaluator

evaluators/metrics_plots_and_validations_evaluator.py and the computations of metrics/metric_types.py 520–729.
-/

namespace TFMA
namespace Evaluate

open Slicer MetricKeys

/-! ### Computations -/

/-- The class of a computation (`other`: an object that is none of them). (metrics/metric_types.py 520–729) -/
inductive CompKind where
  | metric | derived | ciDerived | crossSlice | other
  deriving DecidableEq, Repr

/-- metric_types.py 520–729: a computation.  `className` is the name of the class of the combiner or of the result
function object (for a python function this is always `function`); `preprocessors` are their ids (a
MetricComputation only); `body` is the combiner or the function itself. -/
structure Computation (B : Type) where
  kind : CompKind
  className : String
  keys : List MetricKey
  preprocessors : List String := []
  body : B

/-- What identifies a computation: class name, sorted keys, preprocessor ids.
(metrics/metric_types.py 572–580, 634–639, 696–704) -/
abbrev CompId := String × List MetricKey × List String

variable {B V : Type}

/-- metric_types.py 572–580, 634–639, 696–704 `_computation_id` (the derived ones have no preprocessors). Sorting the keys
may raise. -/
def Computation.id (c : Computation B) : Except Err CompId :=
  match sortKeys c.keys with
  | .ok ks => .ok (c.className, ks, c.preprocessors)
  | .error e => .error e

/-- Whether the computation has the id. (metrics_plots_and_validations_evaluator.py 170–190) -/
def Computation.hasId (i : CompId) (c : Computation B) : Bool :=
  match c.id with
  | .ok j => decide (j = i)
  | .error _ => false

/-- metrics_plots_and_validations_evaluator.py 124–128 `MetricComputations`. -/
structure Separated (B : Type) where
  nonDerived : List (Computation B) := []
  derived : List (Computation B) := []
  crossSlice : List (Computation B) := []
  ciDerived : List (Computation B) := []

/-- metrics_plots_and_validations_evaluator.py 171–174 (and its copies): `if c not in processed` then append; the membership
test computes the hash, hence the id, of `c`. -/
def addNew (c : Computation B) (l : List (Computation B)) : Except Err (List (Computation B)) :=
  match c.id with
  | .error e => .error e
  | .ok i => if l.any (Computation.hasId i) then .ok l else .ok (l ++ [c])

/-- metrics_plots_and_validations_evaluator.py 170–190: one iteration. -/
def separateOne (s : Separated B) (c : Computation B) : Except Err (Separated B) :=
  match c.kind with
  | .metric => (addNew c s.nonDerived).map fun l => { s with nonDerived := l }
  | .ciDerived => (addNew c s.ciDerived).map fun l => { s with ciDerived := l }
  | .derived => (addNew c s.derived).map fun l => { s with derived := l }
  | .crossSlice => (addNew c s.crossSlice).map fun l => { s with crossSlice := l }
  | .other => .error .typeError

/-- metrics_plots_and_validations_evaluator.py 170–190: the loop. -/
def separateLoop : Separated B → List (Computation B) → Except Err (Separated B)
  | s, [] => .ok s
  | s, c :: cs =>
    match separateOne s c with
    | .error e => .error e
    | .ok s' => separateLoop s' cs

/-- metrics_plots_and_validations_evaluator.py 131–196 `_filter_and_separate_computations`. -/
def separate (cs : List (Computation B)) : Except Err (Separated B) := separateLoop {} cs

/-! ### Result dictionaries -/

/-- The class of a key object. (metrics/metric_types.py 253–469) -/
inductive Kind where
  | metric | plot | attributions
  deriving DecidableEq, Repr

/-- A dictionary of results.  Keys are equal if their fields are (metric_types.py 299, 329: the class is ignored); the
class of the key object in the dictionary is kept beside the value. -/
abbrev Results (V : Type) := Dict MetricKey (Kind × V)

/-- `d[k] = v`: if an equal key is present the dictionary keeps the old key object, hence its class.
(python dictionary assignment) -/
def put (d : Results V) (k : MetricKey) (kd : Kind) (v : V) : Results V :=
  match Dict.get? d k with
  | some (kd', _) => Dict.set d k (kd', v)
  | none => Dict.set d k (kd, v)

/-- `d.update(e)`. (python dictionary update) -/
def updateWith (d e : Results V) : Results V := e.foldl (fun acc p => put acc p.1 p.2.1 p.2.2) d

/-- metrics_plots_and_validations_evaluator.py 446–447 `_is_private_metrics`: the name starts with one underscore. -/
def isPrivate (k : MetricKey) : Bool :=
  match k.name.toList with
  | '_' :: '_' :: _ => false
  | '_' :: _ => true
  | _ => false

/-- metrics_plots_and_validations_evaluator.py 450–456 `_remove_private_metrics`, on the dictionary. -/
def removePrivate (d : Results V) : Results V := d.filter fun p => !isPrivate p.1

/-- metrics_plots_and_validations_evaluator.py 682–692 `_filter_by_key_type`: one iteration. -/
def keepKind (want kd : Kind) : Bool :=
  match want with
  | .plot => decide (kd = .plot)
  | .attributions => decide (kd = .attributions)
  | .metric => !decide (kd = .plot) && !decide (kd = .attributions)

/-- metrics_plots_and_validations_evaluator.py 663–692 `_filter_by_key_type`, on the dictionary. -/
def filterKind (want : Kind) (d : Results V) : Results V := d.filter fun p => keepKind want p.2.1

/-! ### Derived metrics -/

/-- metrics_plots_and_validations_evaluator.py 610–619 `add_derived_metrics` (also 737–757 `_add_ci_derived_metrics`). -/
def addDerived : List (Computation (Results V → Except Err (Results V))) → Results V → Except Err (Results V)
  | [], d => .ok d
  | c :: cs, d =>
    match c.body d with
    | .error e => .error e
    | .ok r => addDerived cs (updateWith d r)

/-- The operations on metric values: `_is_metric_diffable` (567–573) and subtraction. -/
structure Ops (V : Type) where
  diffable : V → Bool
  sub : V → V → Except Err V

/-- metrics_plots_and_validations_evaluator.py 637–650: the loop over the items; `all` is the dictionary that is
iterated, `acc` is `diff_result`. -/
def diffLoop (ops : Ops V) (b : String) (all : Results V) : Results V → Results V → Except Err (Results V)
  | [], acc => .ok acc
  | (k, kd, v) :: rest, acc =>
    if isPrivate k then diffLoop ops b all rest acc
    else if k.isDiff then diffLoop ops b all rest acc
    else if k.modelName = b then diffLoop ops b all rest acc
    else match Dict.get? all (k.makeBaselineKey b) with
      | none => diffLoop ops b all rest acc
      | some (_, w) =>
        if ops.diffable v then
          match ops.sub v w with
          | .error e => .error e
          | .ok x => diffLoop ops b all rest (put acc k.makeDiffKey kd x)
        else diffLoop ops b all rest acc

/-- metrics_plots_and_validations_evaluator.py 621–650 `add_diff_metrics`, on the dictionary (an absent or empty baseline
name is false). -/
def addDiff (ops : Ops V) (baseline : Option String) (d : Results V) : Except Err (Results V) :=
  match baseline with
  | none => .ok d
  | some b =>
    if b = "" then .ok d
    else match diffLoop ops b d d [] with
      | .error e => .error e
      | .ok r => .ok (updateWith d r)

/-! ### Cross slice metrics -/

/-- config.proto `CrossSlicingSpec`, with the slicing specs already turned into `SingleSliceSpec`. (lines 232–240) -/
structure CrossSpec where
  baseline : Spec
  slicing : List Spec

/-- metrics_plots_and_validations_evaluator.py 471–480 `is_slice_applicable`. -/
def applicable (c : NumCodec) (key : SliceKey) (specs : List Spec) : Bool := specs.any fun s => s.isSliceApplicable c key

/-- metrics_plots_and_validations_evaluator.py 498–513: the differences; `acc` is `result`. -/
def crossLoop (ops : Ops V) (base : Results V) : Results V → Results V → Except Err (Results V)
  | [], acc => .ok acc
  | (k, kd, v) :: rest, acc =>
    match Dict.get? base k with
    | none => crossLoop ops base rest acc
    | some (_, w) =>
      if isPrivate k then crossLoop ops base rest acc
      else if kd = .plot then crossLoop ops base rest acc
      else if kd = .attributions then crossLoop ops base rest acc
      else match ops.sub w v with
        | .error e => .error e
        | .ok x => crossLoop ops base rest (put acc k kd x)

/-- The function of a `CrossSliceMetricComputation`. (metrics/metric_types.py 659–729) -/
abbrev CrossFn (V : Type) := Results V → Results V → Except Err (Results V)

/-- metrics_plots_and_validations_evaluator.py 515–519. -/
def crossComputed (base comp : Results V) : List (Computation (CrossFn V)) → Results V → Except Err (Results V)
  | [], acc => .ok acc
  | c :: cs, acc =>
    match c.body base comp with
    | .error e => .error e
    | .ok r => crossComputed base comp cs (updateWith acc r)

/-- metrics_plots_and_validations_evaluator.py 496–519: the dictionary of one pair. -/
def crossMetrics (ops : Ops V) (cs : List (Computation (CrossFn V))) (base comp : Results V) :
    Except Err (Results V) :=
  match crossLoop ops base comp [] with
  | .error e => .error e
  | .ok r => crossComputed base comp cs r

/-- metrics_plots_and_validations_evaluator.py 487–518 `compute_cross_slices`. -/
def crossSlices (ops : Ops V) (cs : List (Computation (CrossFn V))) (base : SliceKey × Results V) :
    List (SliceKey × Results V) → Except Err (List ((SliceKey × SliceKey) × Results V))
  | [] => .ok []
  | comp :: rest =>
    match crossMetrics ops cs base.2 comp.2 with
    | .error e => .error e
    | .ok m =>
      match crossSlices ops cs base rest with
      | .error e => .error e
      | .ok out => .ok (((base.1, comp.1), m) :: out)

/-- The FlatMap over the baseline slices (542–549). -/
def crossBaselines (ops : Ops V) (cs : List (Computation (CrossFn V))) (comps : List (SliceKey × Results V)) :
    List (SliceKey × Results V) → Except Err (List ((SliceKey × SliceKey) × Results V))
  | [] => .ok []
  | b :: bs =>
    match crossSlices ops cs b comps with
    | .error e => .error e
    | .ok out =>
      match crossBaselines ops cs comps bs with
      | .error e => .error e
      | .ok outs => .ok (out ++ outs)

/-- metrics_plots_and_validations_evaluator.py 531–540: the comparison slices of a spec. -/
def comparisons (c : NumCodec) (slices : List (SliceKey × Results V)) (spec : CrossSpec) : List (SliceKey × Results V) :=
  if spec.slicing ≠ [] then slices.filter fun s => applicable c s.1 spec.slicing
  else slices.filter fun s => !applicable c s.1 [spec.baseline]

/-- metrics_plots_and_validations_evaluator.py 523–550: the outputs of all cross slicing specs, flattened. -/
def crossAll (c : NumCodec) (ops : Ops V) (cs : List (Computation (CrossFn V))) (slices : List (SliceKey × Results V)) :
    List CrossSpec → Except Err (List ((SliceKey × SliceKey) × Results V))
  | [] => .ok []
  | spec :: specs =>
    match crossBaselines ops cs (comparisons c slices spec)
        (slices.filter fun s => applicable c s.1 [spec.baseline]) with
    | .error e => .error e
    | .ok out =>
      match crossAll c ops cs slices specs with
      | .error e => .error e
      | .ok outs => .ok (out ++ outs)

/-- The key of a record: one slice or a pair of slices. (metrics_plots_and_validations_evaluator.py 460–564) -/
inductive AnyKey where
  | single (k : SliceKey)
  | cross (baseline comparison : SliceKey)
  deriving DecidableEq

/-- metrics_plots_and_validations_evaluator.py 460–564 `_AddCrossSliceMetrics`. -/
def addCross (c : NumCodec) (ops : Ops V) (cs : List (Computation (CrossFn V))) (specs : List CrossSpec)
    (slices : List (SliceKey × Results V)) : Except Err (List (AnyKey × Results V)) :=
  match crossAll c ops cs slices specs with
  | .error e => .error e
  | .ok outs => .ok (slices.map (fun s => (.single s.1, s.2)) ++ outs.map fun o => (.cross o.1.1 o.1.2, o.2))

/-- A `Map` over a collection. (beam.Map in metrics_plots_and_validations_evaluator.py 576–660) -/
def mapValues {X A : Type} (f : A → Except Err A) : List (X × A) → Except Err (List (X × A))
  | [] => .ok []
  | (k, a) :: rest =>
    match f a with
    | .error e => .error e
    | .ok b =>
      match mapValues f rest with
      | .error e => .error e
      | .ok out => .ok ((k, b) :: out)

/-- metrics_plots_and_validations_evaluator.py 576–660 `_AddDerivedCrossSliceAndDiffMetrics`. -/
def addAllDerived (c : NumCodec) (ops : Ops V) (derived : List (Computation (Results V → Except Err (Results V))))
    (cross : List (Computation (CrossFn V))) (specs : List CrossSpec) (baseline : Option String)
    (slices : List (SliceKey × Results V)) : Except Err (List (AnyKey × Results V)) :=
  match mapValues (addDerived derived) slices with
  | .error e => .error e
  | .ok s =>
    match addCross c ops cross specs s with
    | .error e => .error e
    | .ok s' => mapValues (addDiff ops baseline) s'

end Evaluate
end TFMA
