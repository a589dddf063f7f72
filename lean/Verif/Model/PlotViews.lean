import Verif.Model.Views

/-!
# Plots: written, loaded and shown

writers/metrics_plots_and_validations_writer.py 458–555 (`convert_slice_plots_to_proto`), view/util.py 181–385 and 631–682, view/widget_view.py
`render_plot`.  Error records, callbacks and the deprecated fields `plots` and `plot_data` of the record are not modelled, nor is the
`label` that chooses among deprecated plots.
-/

namespace TFMA
namespace PlotViews

open Slicer MetricKeys EvalResults Views

/-- The four members of `PlotData` that hold plots (proto/metrics_for_slice.proto, view/util.py 182–201). -/
inductive Kind where
  | calibration
  | confusion
  | multiClass
  | multiLabel
  deriving DecidableEq, Repr

/-- A field of an entry of a plot after `MessageToDict`: not a number is the text "NaN". (view/util.py 231–235) -/
inductive Cell (N : Type) where
  | nan
  | value (n : N)
  deriving DecidableEq, Repr

variable {N V : Type}

/-- The buckets or matrices of a plot: for each the fields that are set. (view/util.py 225–237) -/
abbrev Series (N : Type) := List (Dict String (Cell N))

/-- A `PlotData` message: the plots that are set. (proto/metrics_for_slice.proto) -/
abbrev PlotData (N : Type) := Dict Kind (Series N)

/-- A value among the results: one of the four messages or something else. (writer 519–539) -/
inductive PlotValue (N : Type) where
  | plot (kind : Kind) (series : Series N)
  | unknown

/-- `key._replace(name=None)` or `key` (writer 503–515): the name, if it is kept, and the key without its name. -/
abbrev ParentKey := Option String × MetricKey

/-- Writer 503–515. -/
def parentKey (k : MetricKey) : ParentKey :=
  if k.name = "confusion_matrix_plot" ∨ k.name = "calibration_plot" then (none, { k with name := "" })
  else (some k.name, { k with name := "" })

/-- Writer 518: `parent_key.to_proto()`; no name and an empty name give the same message. -/
def parentToProto (p : ParentKey) : Except Err MetricKeyPb :=
  MetricKey.plotToProto { p.2 with name := p.1.getD "" }

/-- Writer 521–539: `CopyFrom` sets the member of the kind of the value. -/
def putPlot (d : PlotData N) : PlotValue N → PlotData N
  | .plot kind series => Dict.set d kind series
  | .unknown => d

/-- Writer 499–539: the loop over the sorted keys.  `acc` are the entries of `plot_keys_and_values` with their parent keys. -/
def writeLoop : List (MetricKey × PlotValue N) → Dict ParentKey (MetricKeyPb × PlotData N) →
    Except Err (Dict ParentKey (MetricKeyPb × PlotData N))
  | [], acc => .ok acc
  | (k, v) :: rest, acc =>
    match Dict.get? acc (parentKey k) with
    | some (pb, d) => writeLoop rest (Dict.set acc (parentKey k) (pb, putPlot d v))
    | none =>
      match parentToProto (parentKey k) with
      | .error e => .error e
      | .ok pb => writeLoop rest (Dict.set acc (parentKey k) (pb, putPlot [] v))

/-- A record of plots. (proto/metrics_for_slice.proto `PlotsForSlice`) -/
structure PlotsRecord (N : Type) where
  key : StoredKey
  keysAndValues : List (MetricKeyPb × PlotData N)

/-- A value that no branch of writer 519–539 pops. -/
def PlotValue.isUnknown : PlotValue N → Bool
  | .unknown => true
  | .plot _ _ => false

/-- Writer 458–555 `convert_slice_plots_to_proto`. -/
def writePlots (R : SingleRounding) (slice : ResultKey) (plots : List (MetricKey × PlotValue N)) : Except Err (PlotsRecord N) :=
  match storeKey R slice with
  | .error e => .error e
  | .ok key =>
    match sortKeys (plots.map Prod.fst) with
    | .error e => .error e
    | .ok sorted =>
      match writeLoop (sorted.filterMap fun k => (Dict.get? plots k).map fun v => (k, v)) [] with
      | .error e => .error e
      | .ok acc =>
        if plots.any fun p => p.2.isUnknown then .error .notImplementedError
        else .ok ⟨key, acc.map Prod.snd⟩

/-- view_types.py: plots by output name and sub key. -/
abbrev PlotsByOutput (N : Type) := Dict String (Dict String (PlotData N))

/-- view/util.py 650–662: the loop over the stored keys and values. -/
def fillPlots : List (MetricKeyPb × PlotData N) → Dict String (PlotsByOutput N) → Except Err (Dict String (PlotsByOutput N))
  | [], maps => .ok maps
  | (k, d) :: rest, maps =>
    match subKeyId k.subKey with
    | .error e => .error e
    | .ok sub =>
      let outputs := (Dict.get? maps k.modelName).getD []
      let subs := (Dict.get? outputs k.outputName).getD []
      fillPlots rest (Dict.set maps k.modelName (Dict.set outputs k.outputName (Dict.set subs sub d)))

/-- view/util.py 664–680: the dictionary of the model. -/
def choosePlots (maps : Dict String (PlotsByOutput N)) (model : Option String) : Choice (PlotsByOutput N) :=
  match model.bind (Dict.get? maps) with
  | some own => .shown (some own)
  | none =>
    if (model = none ∨ model = some "") ∧ maps.length = 1 then .shown (maps.head?.map Prod.snd)
    else if maps.isEmpty then .shown none
    else .noMatch

/-- view/util.py 631–682 `convert_plots_proto_to_dict`: `plots_for_slice.slice_key` is empty for a record with a cross slice key. -/
def convertPlots (r : PlotsRecord N) (model : Option String) : Except Err (Option (SliceKey × Option (PlotsByOutput N))) :=
  match fillPlots r.keysAndValues [] with
  | .error e => .error e
  | .ok maps =>
    match choosePlots maps model with
    | .noMatch => .ok none
    | .shown m => (deserializeKey r.key.sliceKey).map fun k => some (k, m)

/-- api/model_eval_lib.py 362–367: the records of plots that are kept. -/
def loadPlots (model : Option String) : List (PlotsRecord N) → Except Err (List (SliceKey × Option (PlotsByOutput N)))
  | [] => .ok []
  | r :: rest =>
    match convertPlots r model with
    | .error e => .error e
    | .ok none => loadPlots model rest
    | .ok (some x) => (loadPlots model rest).map (x :: ·)

/-- view/util.py 182–201: the plots that can be shown, in their order. -/
def supported : List Kind := [.calibration, .confusion, .multiClass, .multiLabel]

/-- view/util.py 233–235: not a number becomes None. -/
def showCell : Cell N → Option N
  | .nan => none
  | .value n => some n

/-- What is shown of a plot. (view/util.py 225–237) -/
abbrev ShownSeries (N : Type) := List (Dict String (Option N))

/-- view/util.py 204–241 `_replace_nan_with_none`: a plot without entries has no data series after `MessageToDict`. -/
def replaceNan (d : PlotData N) : Dict Kind (ShownSeries N) :=
  supported.filterMap fun kind =>
    match Dict.get? d kind with
    | some (e :: es) => some (kind, (e :: es).map fun entry => entry.map fun f => (f.1, showCell f.2))
    | _ => none

/-- view/util.py 292–306: the text of the sub key that is asked for; the last one given is used, but only one may be given. -/
def askedSubKey (classId topK k : Option ℤ) : Except Err String :=
  if 1 < ([classId, topK, k].filter Option.isSome).length then .error .valueError
  else match k, topK, classId with
    | some k, _, _ => .ok ("k:" ++ toString k)
    | none, some t, _ => .ok ("topK:" ++ toString t)
    | none, none, some c => .ok ("classId:" ++ toString c)
    | none, none, none => .ok ""

/-- view/util.py 244–385 `get_plot_data_and_config` without label. `x in None` raises TypeError (326). -/
def getPlotData (c : NumCodec) (name : SliceKey → String) (results : List (SliceKey × Option (PlotsByOutput N))) (spec : Spec)
    (output : Option String) (classId topK k : Option ℤ) : Except Err (Dict Kind (ShownSeries N)) :=
  match askedSubKey classId topK k with
  | .error e => .error e
  | .ok sub =>
    match findAllSlices c name spec (results.map fun r => (.slice r.1, r.2)) with
    | .error e => .error e
    | .ok [(_, plots)] =>
      match plots with
      | none => .error .typeError
      | some m =>
        match Dict.get? m (output.getD "") with
        | none => .error .valueError
        | some subs =>
          match Dict.get? subs sub with
          | none => .error .valueError
          | some d => if d.isEmpty then .error .valueError else .ok (replaceNan d)
    | .ok _ => .error .valueError

end PlotViews
end TFMA
