import Verif.Model.EvalResults

/-!
# What the slicing view and the time series view show

view/util.py 34–178 (line numbers without a file), view/widget_view.py 25–92 and slicer/slicer_lib.py 174–200.

`V` stands for the metrics of a slice.  `name` is `stringify_slice_key` (a readable text that is not meant to be unique).
-/

namespace TFMA
namespace Views

open Slicer

variable {V : Type}

/-- slicer_lib.py 174–200 `is_slice_applicable` on any key of a result.  A cross slice key is a pair of slice keys, which the loop
takes for two entries: the first one has no element [0] if the baseline is the overall slice (IndexError at 196); otherwise its first
element is an entry and no column, and the answer is no. -/
def isApplicable (c : NumCodec) (s : Spec) : ResultKey → Except Err Bool
  | .slice k => .ok (s.isSliceApplicable c k)
  | .cross [] _ => .error .indexError
  | .cross (_ :: _) _ => .ok false

/-- A record of the slicing view: name of the slice and metrics. (103–107) -/
abbrev Shown (V : Type) := String × V

/-- 84–110 `find_all_slices`: only slice keys are found, so only they are named. -/
def findAllSlices (c : NumCodec) (name : SliceKey → String) (s : Spec) : List (ResultKey × V) → Except Err (List (Shown V))
  | [] => .ok []
  | (k, v) :: rest =>
    match isApplicable c s k with
    | .error e => .error e
    | .ok false => findAllSlices c name s rest
    | .ok true =>
      match findAllSlices c name s rest with
      | .error e => .error e
      | .ok l => .ok ((match k with | .slice key => name key | .cross _ _ => "", v) :: l)

/-- 34–81 `get_slicing_metrics`; an empty column counts as none. -/
def getSlicingMetrics (c : NumCodec) (name : SliceKey → String) (results : List (ResultKey × V)) (column : Option String)
    (spec : Option Spec) : Except Err (List (Shown V)) :=
  let col := column.filter fun s => decide (s ≠ "")
  let used : Spec := match col with
    | some s => ⟨[s], []⟩
    | none => spec.getD ⟨[], []⟩
  match findAllSlices c name used results with
  | .error e => .error e
  | .ok data =>
    if data.isEmpty then .error .valueError
    else if col = none ∧ spec.isNone ∧ 1 < data.length then .error .valueError
    else .ok data

/-- The part of `EvalResult` that the time series uses. (view_types.py) -/
structure Run (V : Type) where
  slicingMetrics : List (ResultKey × V)
  modelLocation : String
  dataLocation : String

/-- A point of the time series: metrics, model and data. (142–153) -/
structure Point (V : Type) where
  metrics : V
  model : String
  data : String

/-- 137–156: the loop over the runs; `ident` is `_get_identifier` (165–178) with the choice of full paths. -/
def timeSeriesLoop (c : NumCodec) (name : SliceKey → String) (ident : String → String) (s : Spec) :
    List (Run V) → List (Point V) → Except Err (List (Point V))
  | [], data => .ok data
  | r :: rest, data =>
    match findAllSlices c name s r.slicingMetrics with
    | .error e => .error e
    | .ok [] => timeSeriesLoop c name ident s rest data
    | .ok [m] => timeSeriesLoop c name ident s rest (data ++ [⟨m.2, ident r.modelLocation, ident r.dataLocation⟩])
    | .ok (_ :: _ :: _) => .error .valueError

/-- 113–162 `get_time_series`. -/
def getTimeSeries (c : NumCodec) (name : SliceKey → String) (ident : String → String) (runs : List (Run V)) (s : Spec) :
    Except Err (List (Point V)) :=
  match timeSeriesLoop c name ident s runs [] with
  | .error e => .error e
  | .ok [] => .error .valueError
  | .ok data => .ok data

end Views
end TFMA
