import Verif.Model.Filters

/-!
# The inputs metrics share

`metrics/metric_types.py` 987–1056 (`StandardMetricInputsPreprocessor`) and 1059–1235 (the functions
that make one), `evaluators/metrics_plots_and_validations_evaluator.py` 302–394
(`_PreprocessorDoFn.process`) and 412–430 (what a combiner gets).

Simplifications: extracts are nested dictionaries (`Filters.Target`); the preprocessors
of a computation that has its own are one function from extracts to their outputs;
filters are dictionaries (a list of keys stands for the dictionary with empty values);
names of preprocessors, counters and timers are left out. The order of entries in
dictionaries means nothing.
-/

namespace TFMA.SharedInputs
open TFMA Filters

variable {α β : Type}

/-- `{name: f for name in names}` (metric_types.py 1033–1035 and others). -/
def byName (names : List String) (f : Filter) : Filter :=
  names.foldl (fun d n => d.set n (.node f)) .nil

/-- `if names: f = {name: f for name in names}` (metric_types.py 1032–1035 and others). -/
def under (names : List String) (f : Filter) : Filter :=
  if names.isEmpty then f else byName names f

/-- metric_types.py 991–1047 `StandardMetricInputsPreprocessor.__init__`: the filter of the
preprocessor. -/
def std (inc : Filter) (defaults : Bool) (models outputs : List String) : Filter :=
  if defaults then
    let d : Tree Empty := .node (under models (under outputs .nil))
    ((inc.set "labels" d).set "predictions" d).set "example_weights" d
  else inc

/-- metric_types.py 1059–1073 `InputPreprocessor`. -/
def inputFilter (defaults : Bool) : Filter :=
  std (.cons "input" (.node .nil) .nil) defaults [] []

/-- metric_types.py 1076–1104 `FeaturePreprocessor`. -/
def featureFilter (keys : List String) (defaults : Bool) (models outputs : List String) : Filter :=
  std (.cons "features" (.node (under keys .nil)) .nil) defaults models outputs

/-- metric_types.py 1107–1137 `TransformedFeaturePreprocessor`. -/
def transformedFilter (keys : List String) (defaults : Bool) (models outputs : List String) : Filter :=
  std (.cons "transformed_features" (.node (under models (under keys .nil))) .nil) defaults models outputs

/-- metric_types.py 1140–1173 `CombinedFeaturePreprocessor`. -/
def combinedFilter (keys : List String) (defaults : Bool) (models outputs : List String) : Filter :=
  let f : Tree Empty := .node (under models (under keys .nil))
  std (.cons "transformed_features" f (.cons "features" f .nil)) defaults models outputs

/-- metric_types.py 1176–1207 `AttributionPreprocessor`. -/
def attributionFilter (keys : List String) (defaults : Bool) (models outputs : List String) : Filter :=
  std (.cons "attributions" (.node (under models (under outputs (under keys .nil)))) .nil) defaults models outputs

/-- metric_types.py 1210–1235 `StandardMetricInputsPreprocessorList`: its filter. -/
def listFilter (fs : List Filter) : Filter :=
  fs.foldl (fun acc f => if acc.isEmpty then f else mergeFilters acc f) .nil

/-- metric_types.py 1052–1056 `StandardMetricInputsPreprocessor.process`: all the extracts it
yields. -/
def process (f : Filter) (t : Target α) : Except Err (List (Target α)) :=
  match includeFilter f t with
  | .error e => .error e
  | .ok r => .ok (if f.isEmpty then [.nil, r] else [r])

/-- metrics/metric_util.py 261–320 `to_standard_metric_inputs`, with the flags the evaluator
passes (metrics_plots_and_validations_evaluator.py 373–390). -/
def standardInputs (f : Filter) (t : Target α) : Except Err (Target α) :=
  if f.has "labels" && !t.has "labels" then .error .valueError
  else if f.has "predictions" && !t.has "predictions" then .error .valueError
  else if (f.has "features" || f.has "transformed_features") && !t.has "features" && !t.has "transformed_features" then
    .error .valueError
  else if f.has "attributions" && !t.has "attributions" then .error .valueError
  else .ok t

/-- What a computation asks for (metrics_plots_and_validations_evaluator.py 319–359): nothing in
particular, a `StandardMetricInputsPreprocessor`, or preprocessors of its own. -/
inductive Request (α β : Type) where
  | default
  | standard (f : Filter)
  | own (run : Target α → Except Err (List β))

/-- metrics_plots_and_validations_evaluator.py 319–343: the filters of
`standard_preprocessors`; `added` is `added_default_standard_preprocessor`. -/
def standards : Bool → List (Request α β) → List Filter
  | _, [] => []
  | added, .default :: rest => (if added then [] else [std .nil true [] []]) ++ standards true rest
  | added, .standard f :: rest => f :: standards added rest
  | added, .own _ :: rest => standards added rest

/-- metrics_plots_and_validations_evaluator.py 316–359: `combiner_inputs`. -/
def combinerInputs (t : Target α) : List (Request α β) → Except Err (List (Option (List β)))
  | [] => .ok []
  | .own run :: rest =>
    match run t with
    | .error e => .error e
    | .ok l =>
      match combinerInputs t rest with
      | .error e => .error e
      | .ok r => .ok (some l :: r)
  | _ :: rest =>
    match combinerInputs t rest with
    | .error e => .error e
    | .ok r => .ok (none :: r)

/-- The loop of metrics_plots_and_validations_evaluator.py 372–391. -/
def allStandard (f : Filter) : List (Target α) → Except Err (List (Target α))
  | [] => .ok []
  | t :: rest =>
    match standardInputs f t with
    | .error e => .error e
    | .ok x =>
      match allStandard f rest with
      | .error e => .error e
      | .ok xs => .ok (x :: xs)

/-- metrics_plots_and_validations_evaluator.py 365–392: `default_combiner_input`; nothing if no
computation uses it. -/
def shared (fs : List Filter) (t : Target α) : Except Err (List (Target α)) :=
  if fs.isEmpty then .ok []
  else
    match process (listFilter fs) t with
    | .error e => .error e
    | .ok ts => allStandard (listFilter fs) ts

/-- An input of a combiner: the output of preprocessors of its own, or standard inputs. -/
inductive Input (α β : Type) where
  | own (b : β)
  | standard (t : Target α)

/-- metrics_plots_and_validations_evaluator.py 302–394 `_PreprocessorDoFn.process` and
`get_combiner_input` (414–418): for an example, the inputs that are added to each combiner. -/
def inputs (reqs : List (Request α β)) (t : Target α) : Except Err (List (List (Input α β))) :=
  match combinerInputs t reqs with
  | .error e => .error e
  | .ok items =>
    match shared (standards false reqs) t with
    | .error e => .error e
    | .ok d => .ok (items.map fun
      | none => d.map .standard
      | some l => l.map .own)

end TFMA.SharedInputs
