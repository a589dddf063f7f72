import Verif.Model.Views
import Verif.Py.Basic

/-!
# The view of attributions (view/widget_view.py 127–192)

Line numbers refer to view/widget_view.py.  `F` stands for the attributions of one metric by feature.
-/

namespace TFMA
namespace AttributionViews

open Slicer Views

variable {F : Type}

/-- The attributions of a slice: by output, sub key and metric. (view/view_types.py 102–109) -/
abbrev Attributions (F : Type) := Dict String (Dict String (Dict String F))

/-- What is shown of a slice: by output and sub key. (164–183) -/
abbrev ShownAttributions (F : Type) := Dict String (Dict String F)

/-- 171–183: the attributions of one metric out of those of a sub key; an empty name counts as none. -/
def choose (metric : Option String) (items : Dict String F) : Except Err F :=
  match metric.filter (fun s => decide (s ≠ "")) with
  | some name =>
    if !Dict.has items name then .error .valueError
    else match Dict.get? items name with
      | some v => .ok v
      | none => .error .keyError
  | none =>
    if items.length = 1 then
      match items.map Prod.snd with
      | v :: _ => .ok v
      | [] => .error .indexError
    else .error .valueError

/-- 169–183: the loop over the sub keys of an output. -/
def subKeyLoop (metric : Option String) : Dict String (Dict String F) → Dict String F → Except Err (Dict String F)
  | [], updated => .ok updated
  | (key, items) :: rest, updated =>
    match choose metric items with
    | .error e => .error e
    | .ok v => subKeyLoop metric rest (Dict.set updated key v)

/-- 165–183: the loop over the outputs of a slice. -/
def outputLoop (metric : Option String) : Attributions F → ShownAttributions F → Except Err (ShownAttributions F)
  | [], updated => .ok updated
  | (output, subKeys) :: rest, updated =>
    match subKeyLoop metric subKeys [] with
    | .error e => .error e
    | .ok d => outputLoop metric rest (Dict.set updated output d)

/-- 163–184: the loop over the slices. -/
def sliceLoop (metric : Option String) : List (Shown (Attributions F)) → Except Err (List (Shown (ShownAttributions F)))
  | [] => .ok []
  | (slice, d) :: rest =>
    match outputLoop metric d [] with
    | .error e => .error e
    | .ok shown => match sliceLoop metric rest with
      | .error e => .error e
      | .ok l => .ok ((slice, shown) :: l)

/-- 127–192 `render_slicing_attributions`: the data that is shown (the column of counts is that of Model/SlicingColumn). -/
def renderSlicingAttributions (c : NumCodec) (name : SliceKey → String) (attributions : List (ResultKey × Attributions F))
    (column : Option String) (spec : Option Spec) (metric : Option String) : Except Err (List (Shown (ShownAttributions F))) :=
  match getSlicingMetrics c name attributions column spec with
  | .error e => .error e
  | .ok data => sliceLoop metric data

end AttributionViews
end TFMA
