import Verif.Model.MetricKeys
import Verif.Model.Loading

/-!
# Loaded results: from stored records to nested dictionaries and their accessors

view/util.py, view/view_types.py and api/model_eval_lib.py. A stored value is a metric value message; the dictionaries hold
such values (the JSON form given to them by `MessageToDict` is not modelled).
-/

namespace TFMA
namespace EvalResults

open MetricKeys Slicer

/-- metric_types.py 102–115 `SubKey.__str__`. -/
def subKeyStr (s : SubKey) : Except Err String :=
  match s.k with
  | some k => .ok ("k:" ++ toString k)
  | none => match s.classId, s.topK with
    | some c, some t => .ok ("classId:" ++ toString c ++ " topK:" ++ toString t)
    | some c, none => .ok ("classId:" ++ toString c)
    | none, some t => .ok ("topK:" ++ toString t)
    | none, none => .error .notImplementedError

/-- A `MetricValue` message (metrics_for_slice.proto 219–243): the members of its oneof that view/util.py looks at, the others
together. `O` is the type of the contents of the others. -/
inductive MetricValue (O : Type) where
  | double (v : ℚ)
  | bounded (lower upper value : ℚ)
  | other (o : O)
  deriving DecidableEq, Repr

/-- `ConfidenceInterval` (metrics_for_slice.proto 275–289): the two bounds. -/
structure Interval (O : Type) where
  lower : Option (MetricValue O) := none
  upper : Option (MetricValue O) := none

/-- `MetricKeyAndValue` (metrics_for_slice.proto 292–298). An absent interval reads as an empty one. -/
structure KeyValue (O : Type) where
  key : MetricKeyPb
  value : MetricValue O
  interval : Interval O := {}

variable {O V W : Type}

/-- `value.double_value`: zero if another member of the oneof is set. (view/util.py 539–540) -/
def MetricValue.asDouble : MetricValue O → ℚ
  | .double v => v
  | _ => 0

/-- view/util.py 507–545 `_get_metric_value_with_ci`. -/
def withInterval (v : MetricValue O) (ci : Interval O) : MetricValue O :=
  match ci.lower, ci.upper, v with
  | some l, some u, .double d => .bounded l.asDouble u.asDouble d
  | _, _, _ => v

/-- view/util.py 573–577, 653–657, 702–705: `str(SubKey.from_proto(kv.key.sub_key))` if there is one; the text of an empty
message is that of `None`. -/
def subKeyId : Option SubKeyPb → Except Err String
  | none => .ok ""
  | some pb => match SubKey.fromProto pb with
    | .error e => .error e
    | .ok none => .ok "None"
    | .ok (some s) => subKeyStr s

/-- The text format of the `AggregationType` message (view/util.py 588). -/
def aggregationText : AggregationPb → String
  | .unset => ""
  | .microAvg b => "micro_average: " ++ (if b then "true" else "false") ++ "\n"
  | .macroAvg b => "macro_average: " ++ (if b then "true" else "false") ++ "\n"
  | .weightedMacro b => "weighted_macro_average: " ++ (if b then "true" else "false") ++ "\n"

/-- view/util.py 580–590: the name under which a metric is shown. -/
def shownName (k : MetricKeyPb) : String :=
  if k.isDiff then k.name ++ "_diff"
  else match k.aggregationType with
    | some a => aggregationText a ++ "_" ++ k.name
    | none => k.name

/-- view/util.py 708–716: the name under which an attribution is shown. -/
def attributionName (k : MetricKeyPb) : String :=
  if k.isDiff then k.name ++ "_diff" else k.name

/-- view/util.py 581–586, 709–714: the model of the diff metrics, empty if there are several. -/
def diffModel (k : MetricKeyPb) (default : Option String) : Option String :=
  if k.isDiff then
    match default with
    | none => some k.modelName
    | some d => if d ≠ k.modelName then some "" else some d
  else default

/-- view_types.py 50–52: output name, sub key, metric name. -/
abbrev ByOutput (V : Type) := Dict String (Dict String (Dict String V))

/-- `m.setdefault(output, {}).setdefault(sub_key, {})[name] = value` (view/util.py 606–608; 568–592 does the same in steps). -/
def setIn (m : ByOutput V) (output sub name : String) (v : V) : ByOutput V :=
  let subs := (Dict.get? m output).getD []
  let names := (Dict.get? subs sub).getD []
  Dict.set m output (Dict.set subs sub (Dict.set names name v))

/-- view/util.py 564–592, 694–719: the loop over the stored keys and values of a record; it fills one dictionary per model and
finds the model of the diff metrics. -/
def fill (name : MetricKeyPb → String) (val : W → V) :
    List (MetricKeyPb × W) → Dict String (ByOutput V) → Option String → Except Err (Dict String (ByOutput V) × Option String)
  | [], maps, default => .ok (maps, default)
  | (k, w) :: rest, maps, default =>
    match subKeyId k.subKey with
    | .error e => .error e
    | .ok sub =>
      let own := (Dict.get? maps k.modelName).getD []
      fill name val rest (Dict.set maps k.modelName (setIn own k.outputName sub (name k) (val w))) (diffModel k default)

/-- python `a or b` for optional texts (view/util.py 596, 723): an empty text is false. -/
def orElseText (a b : Option String) : Option String :=
  match a with
  | some s => if s = "" then b else some s
  | none => b

/-- Two nested loops of view/util.py 601–608: everything in `extra` is put into `m`. -/
def addAll (m extra : ByOutput V) : ByOutput V :=
  extra.foldl (fun m o => o.2.foldl (fun m s => s.2.foldl (fun m n => setIn m o.1 s.1 n.1 n.2) m) m) m

/-- What is chosen from the dictionaries of the models. (view/util.py 594–621, 665–682, 721–736) -/
inductive Choice (M : Type) where
  | shown (m : Option M)
  | noMatch

/-- view/util.py 594–621: the dictionary of the model. -/
def chooseMetrics (maps : Dict String (ByOutput V)) (model default : Option String) : Choice (ByOutput V) :=
  let tmp := orElseText model default
  match tmp.bind (Dict.get? maps) with
  | some own =>
    .shown (some (if tmp ≠ some "" then
      match Dict.get? maps "" with
      | some shared => addAll own shared
      | none => own
    else own))
  | none =>
    if (tmp = none ∨ tmp = some "") ∧ maps.length = 1 then .shown (maps.head?.map Prod.snd)
    else if maps.isEmpty then .shown none
    else .noMatch

/-- The key of a record. (view/util.py 623–628) -/
def recordKey : StoredKey → Except Err ResultKey
  | .cross k => (deserializeCross k).map fun p => .cross p.1 p.2
  | .slice k => (deserializeKey k).map .slice

/-- A stored record of metrics: `legacy` is the deprecated map `metrics`. (metrics_for_slice.proto 291–317) -/
structure MetricsRecord (O : Type) where
  key : StoredKey
  legacy : Dict String (MetricValue O) := []
  keysAndValues : List (KeyValue O)

/-- view/util.py 548–628 `convert_metrics_proto_to_dict`; `none` if no model matches. -/
def convertMetrics (r : MetricsRecord O) (model : Option String) :
    Except Err (Option (ResultKey × Option (ByOutput (MetricValue O)))) :=
  let start : Dict String (ByOutput (MetricValue O)) :=
    if r.legacy.isEmpty then [] else [("", [("", [("", r.legacy)])])]
  match fill shownName (fun w : MetricValue O × Interval O => withInterval w.1 w.2)
      (r.keysAndValues.map fun kv => (kv.key, (kv.value, kv.interval))) start none with
  | .error e => .error e
  | .ok (maps, default) =>
    match chooseMetrics maps model default with
    | .noMatch => .ok none
    | .shown m => (recordKey r.key).map fun k => some (k, m)

/-- A stored record of attributions. (metrics_for_slice.proto 473–490) -/
structure AttributionsRecord (V : Type) where
  key : StoredKey
  keysAndValues : List (MetricKeyPb × Dict String V)

/-- view/util.py 685–738 `convert_attributions_proto_to_dict`: `attributions_for_slice.slice_key` is empty for a record with a
cross slice key. -/
def convertAttributions (r : AttributionsRecord V) (model : Option String) :
    Except Err (SliceKey × Option (ByOutput (Dict String V))) :=
  match fill attributionName (fun w : Dict String V => w) r.keysAndValues [] none with
  | .error e => .error e
  | .ok (maps, default) =>
    let tmp := orElseText model default
    let finish (m : Option (ByOutput (Dict String V))) := (deserializeKey r.key.sliceKey).map fun k => (k, m)
    match tmp.bind (Dict.get? maps) with
    | some own => finish (some own)
    | none =>
      if (tmp = none ∨ tmp = some "") ∧ maps.length = 1 then finish (maps.head?.map Prod.snd)
      else if maps.isEmpty then finish none
      else .error .valueError

/-- api/model_eval_lib.py 355–361: the records that are kept. -/
def loadMetrics (model : Option String) : List (MetricsRecord O) →
    Except Err (List (ResultKey × Option (ByOutput (MetricValue O))))
  | [] => .ok []
  | r :: rest => match convertMetrics r model with
    | .error e => .error e
    | .ok none => loadMetrics model rest
    | .ok (some x) => (loadMetrics model rest).map (x :: ·)

/-- api/model_eval_lib.py 368–377: the records of attributions. -/
def loadAttributions (model : Option String) : List (AttributionsRecord V) →
    Except Err (List (ResultKey × Option (ByOutput (Dict String V))))
  | [] => .ok []
  | r :: rest => match convertAttributions r model with
    | .error e => .error e
    | .ok x => (loadAttributions model rest).map ((.slice x.1, x.2) :: ·)

/-- python `==` on keys of results; a slice key and a cross slice key are never equal. (view_types.py 219–223) -/
def resultKeyEq : ResultKey → ResultKey → Bool
  | .slice a, .slice b => keyEq a b
  | .cross a b, .cross a' b' => keyEq a a' && keyEq b b'
  | _, _ => false

/-- `not key`: only the overall slice is empty. (view_types.py 219–223) -/
def resultKeyEmpty : ResultKey → Bool
  | .slice [] => true
  | _ => false

/-- view_types.py 219–223, 321–325 `equals_slice_name`. -/
def equalsSliceName (sliceName sliceKey : ResultKey) : Bool :=
  if resultKeyEmpty sliceKey then resultKeyEmpty sliceName else resultKeyEq sliceKey sliceName

/-- view_types.py 214–217, 256–259: the sub key of metrics accessors. -/
def metricsSubKey (classId k topK : Option ℤ) : Except Err String :=
  if classId = none ∧ k = none ∧ topK = none then .ok ""
  else match SubKey.new classId k topK with
    | .error e => .error e
    | .ok s => subKeyStr s

/-- python truth of an optional integer. (view_types.py 324, 377) -/
def truthy : Option ℤ → Bool
  | some i => decide (i ≠ 0)
  | none => false

/-- view_types.py 316–319, 368–371: the sub key of attributions accessors. -/
def attributionsSubKey (classId k topK : Option ℤ) : Except Err String :=
  if truthy classId || truthy k || truthy topK then
    match SubKey.new classId k topK with
    | .error e => .error e
    | .ok s => subKeyStr s
  else .ok ""

/-- `value[output_name][sub_key]`: the value may be `None`. (view_types.py 236, 269) -/
def subMap (m : Option (ByOutput V)) (output sub : String) : Except Err (Dict String V) :=
  match m with
  | none => .error .typeError
  | some m => match Dict.get? m output with
    | none => .error .keyError
    | some subs => match Dict.get? subs sub with
      | none => .error .keyError
      | some names => .ok names

/-- The loop of view_types.py 225–232, 327–341: the first record of the slice. -/
def findSlice (sliceName : ResultKey) (l : List (ResultKey × Option (ByOutput V))) : Option (Option (ByOutput V)) :=
  (l.find? fun x => equalsSliceName sliceName x.1).map Prod.snd

/-- view_types.py 189–232 `get_metrics_for_slice`. -/
def getMetricsForSlice (l : List (ResultKey × Option (ByOutput V))) (sliceName : ResultKey) (output : String)
    (classId k topK : Option ℤ) : Except Err (Option (Dict String V)) :=
  match metricsSubKey classId k topK with
  | .error e => .error e
  | .ok sub => match findSlice sliceName l with
    | none => .ok none
    | some m => (subMap m output sub).map some

/-- `d[key] = value` for a dictionary whose keys are slice keys (python equality of keys). (view_types.py 270) -/
def setSlice (d : List (ResultKey × V)) (k : ResultKey) (v : V) : List (ResultKey × V) :=
  match d with
  | [] => [(k, v)]
  | (k', v') :: d => if resultKeyEq k' k then (k', v) :: d else (k', v') :: setSlice d k v

/-- view_types.py 261–269: the loop of `get_metrics_for_all_slices`. -/
def allSlicesLoop (output sub : String) : List (ResultKey × Option (ByOutput V)) → List (ResultKey × Dict String V) →
    Except Err (List (ResultKey × Dict String V))
  | [], acc => .ok acc
  | (key, m) :: rest, acc => match subMap m output sub with
    | .error e => .error e
    | .ok names => allSlicesLoop output sub rest (setSlice acc key names)

/-- view_types.py 234–269 `get_metrics_for_all_slices`. -/
def getMetricsForAllSlices (l : List (ResultKey × Option (ByOutput V))) (output : String) (classId k topK : Option ℤ) :
    Except Err (List (ResultKey × Dict String V)) :=
  match metricsSubKey classId k topK with
  | .error e => .error e
  | .ok sub => allSlicesLoop output sub l []

/-- view_types.py 271–283 `get_metric_names` (a set: the order is arbitrary; iterating over `None` is a TypeError). -/
def getMetricNames (l : List (ResultKey × Option (ByOutput V))) : Except Err (List String) :=
  match l with
  | [] => .ok []
  | (_, none) :: _ => .error .typeError
  | (_, some m) :: rest =>
    (getMetricNames rest).map (m.flatMap (fun o => o.2.flatMap fun s => Dict.keys s.2) ++ ·)

/-- view_types.py 331–338, 377–384: the attributions of the given metric, or of the only one. -/
def pickMetric (names : Dict String V) (metricName : String) : Except Err V :=
  if metricName ≠ "" then
    match Dict.get? names metricName with
    | some v => .ok v
    | none => .error .keyError
  else match names with
    | [x] => .ok x.2
    | _ => .error .valueError

/-- view_types.py 285–341 `get_attributions_for_slice`. -/
def getAttributionsForSlice (l : List (ResultKey × Option (ByOutput V))) (sliceName : ResultKey) (metricName output : String)
    (classId k topK : Option ℤ) : Except Err (Option V) :=
  match attributionsSubKey classId k topK with
  | .error e => .error e
  | .ok sub => match findSlice sliceName l with
    | none => .ok none
    | some m => match subMap m output sub with
      | .error e => .error e
      | .ok names => (pickMetric names metricName).map some

/-! ### Several results -/

/-- What `load_eval_run` gives as the locations of the models: the map of a stored run, or the single location of a configuration that an
old version has pickled. (writers/eval_config_writer.py 82–116) -/
inductive Locations where
  | run (d : Dict String String)
  | pickled (location : String)

/-- `list(model_locations)` (api/model_eval_lib.py 320–322). -/
def Locations.names : Locations → List String
  | .run d => Dict.keys d
  | .pickled _ => [""]

/-- api/model_eval_lib.py 378–383: the location that is stored in the result.  The map of a run is a protocol buffer map, where looking up
an absent name gives the empty text; the other one is a dictionary. -/
def Locations.lookup : Locations → Option String → Except Err String
  | .run d, none => .ok ((d.head?.map Prod.snd).getD "")
  | .run d, some m => .ok ((Dict.get? d m).getD "")
  | .pickled l, none => .ok l
  | .pickled l, some m => if m = "" then .ok l else .error .keyError

/-- api/model_eval_lib.py 331–392 `load_eval_result`: the result of one run for a model with the location of the model; `load` stands for
reading and converting the records. -/
def loadResult {R : Type} (load : ℕ → Option String → Except Err R) (locations : ℕ → Locations) (path : ℕ)
    (model : Option String) : Except Err (R × String) :=
  match load path model with
  | .error e => .error e
  | .ok r => ((locations path).lookup model).map fun l => (r, l)

/-- api/model_eval_lib.py 324–327: the inner loop. Afterwards the variable `model_name` holds the last name of the loop. -/
def loadModels {R : Type} (load : ℕ → Option String → Except Err R) (locations : ℕ → Locations) (path : ℕ) :
    List String → Option String → Except Err (List (ℕ × String × R × String) × Option String)
  | [], model => .ok ([], model)
  | m :: rest, _ => match loadResult load locations path (some m) with
    | .error e => .error e
    | .ok r => (loadModels load locations path rest (some m)).map fun p => ((path, m, r) :: p.1, p.2)

/-- api/model_eval_lib.py 293–328 `load_eval_results` (paths are numbers): the loop over the paths. The variable `model_name` is
the argument and the variable of the inner loop. -/
def loadResults {R : Type} (load : ℕ → Option String → Except Err R) (locations : ℕ → Locations) :
    List ℕ → Option String → Except Err (List (ℕ × String × R × String))
  | [], _ => .ok []
  | path :: rest, model =>
    let names := match model with
      | none => (locations path).names
      | some m => [m]
    match loadModels load locations path names model with
    | .error e => .error e
    | .ok (rs, model') => (loadResults load locations rest model').map (rs ++ ·)

end EvalResults
end TFMA
