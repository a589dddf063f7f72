import Verif.Model.Plots
import Verif.Model.CocoSetup
import Verif.Model.Coco

/-!
# Setting up confusion matrix plots

metrics/confusion_matrix_plot.py and metrics/object_detection_confusion_matrix_plot.py: which computations a plot consists of, and what
the evaluator makes of the computations of all plots of a configuration.
-/

namespace TFMA
namespace PlotSetup

open MetricKeys Evaluate MatrixSetup

/-- The arguments of confusion_matrix_plot.py 57–70 `_confusion_matrix_plot`; `plotSubKey` is the sub key of the plot key (that of
`plot_key`, otherwise the same as `subKey`).  Preprocessors are given by their names. -/
structure PlotArgs where
  num : ℕ := 1000
  name : String := "confusion_matrix_plot"
  modelName : String := ""
  outputName : String := ""
  subKey : Option SubKey := none
  aggregationType : Option AggregationType := none
  classWeights : Option (Dict ℤ ℚ) := none
  exampleWeighted : Bool := false
  preprocessors : List String := []
  plotSubKey : Option SubKey := none

/-- confusion_matrix_plot.py 72–81, object_detection_confusion_matrix_plot.py 135–141: the key of the plot. -/
def plotKey (a : PlotArgs) : Key :=
  { name := .given (some a.name), modelName := a.modelName, outputName := a.outputName, subKey := a.plotSubKey
    exampleWeighted := a.exampleWeighted }

/-- What a computation of a plot does. (confusion_matrix_plot.py 88–121) -/
inductive PBody where
  | matrices (b : Body)
  | plot (input : Key)
  deriving DecidableEq

/-- The request for matrices, confusion_matrix_plot.py 88–106: with a name of its own. -/
def request (a : PlotArgs) (ts : List Fl) : Request :=
  { thresholds := some ts, name := some ("_binary_confusion_matrices_" ++ a.name), modelName := a.modelName, outputName := a.outputName
    subKey := a.subKey, aggregationType := a.aggregationType, classWeights := a.classWeights, exampleWeighted := a.exampleWeighted
    useHistogram := some true, preprocessors := a.preprocessors }

/-- confusion_matrix_plot.py 57–124: the computations of the matrices and the one of the plot, which reads the last key. -/
def comps (a : PlotArgs) : Except Err (List (CompKind × String × List Key × List String × PBody)) :=
  match Plots.plotThresholds a.num with
  | .error e => .error e
  | .ok ts => match computations (request a ts) with
    | .error e => .error e
    | .ok cs => match cs.getLast?.bind fun c => c.keys.getLast? with
      | none => .error .indexError
      | some input => .ok (cs.map (fun c => (c.kind, c.className, c.keys, c.preprocessors, .matrices c.body)) ++
          [(.derived, "function", [plotKey a], [], .plot input)])

/-- object_detection_confusion_matrix_plot.py 99–166: the arguments are checked, the class id becomes the sub key of the plot key (only),
and there is a preprocessor.  Arguments which this function does not name (`sub_key`, `aggregation_type`, `class_weights`) are not passed to it
(metric_util.py 1176–1232); a class id has to be given. -/
def detectionArgs (renderPre : CocoSetup.PName → String) (num : ℕ) (name outputName : String) (exampleWeighted : Bool)
    (s : CocoSetup.Setting) : Except Err PlotArgs :=
  match Coco.validate { classIds := some [s.classId], classWeights := s.classWeight.map fun w => [w]
                        areaRange := s.areaRange.map fun r => [r.1, r.2], maxNumDetections := s.maxNumDetections
                        stacked := (s.labelsToStack.getD [] ++ s.predictionsToStack.getD []) ≠ [], outputName := outputName } with
  | .error e => .error e
  | .ok () => .ok { num, name, modelName := s.modelName, outputName, exampleWeighted, preprocessors := [renderPre (CocoSetup.pname s)]
                    plotSubKey := some ⟨some s.classId, none, none⟩ }

/-! ### Evaluation of a slice -/

/-- A value among the results: a histogram, matrices or what is shown. (confusion_matrix_plot.py 107–116) -/
inductive Value (H M P : Type) where
  | hist (h : H)
  | mats (m : M)
  | shown (p : P)
  deriving DecidableEq

/-- What the histogram of a computation is for the examples of the slice (it depends on the preprocessors and the arguments of the combiner),
the matrices at thresholds from a histogram (binary_confusion_matrices.py 436–472), and the message shown for matrices
(confusion_matrix_plot.py 113–115). -/
structure Meaning (H M P : Type) where
  data : List String → Body → H
  mats : List Fl → H → M
  shown : M → P

variable {H M P : Type}

/-- The computations handed to the evaluator. (metric_types.py 520–729) -/
def textOf (render : Name → String) (c : CompKind × String × List Key × List String × PBody) : Computation PBody :=
  { kind := c.1, className := c.2.1, keys := c.2.2.1.map (Key.text render), preprocessors := c.2.2.2.1, body := c.2.2.2.2 }

/-- All computations of the plots, in the order of the configuration. (specs to computations, metric_specs.py 655–677) -/
def allComps (render : Name → String) : List PlotArgs → Except Err (List (Computation PBody))
  | [] => .ok []
  | a :: as => match comps a with
    | .error e => .error e
    | .ok cs => match allComps render as with
      | .error e => .error e
      | .ok rest => .ok (cs.map (textOf render) ++ rest)

/-- The functions of the derived computations: binary_confusion_matrices.py 436–484 and confusion_matrix_plot.py 107–116. -/
def derivedFn (I : Meaning H M P) (render : Name → String) (c : Computation PBody) :
    Computation (Results (Value H M P) → Except Err (Results (Value H M P))) :=
  { c with body := fun d => match c.body with
      | .matrices (.fromHistogram ts input) => match Dict.get? d (input.text render) with
        | some (_, .hist h) => .ok (c.keys.map fun k => (k, Kind.metric, Value.mats (I.mats ts h)))
        | some _ => .error .typeError
        | none => .error .keyError
      | .plot input => match Dict.get? d (input.text render) with
        | some (_, .mats m) => .ok (c.keys.map fun k => (k, Kind.plot, Value.shown (I.shown m)))
        | some _ => .error .typeError
        | none => .error .keyError
      | .matrices _ => .error .typeError }

/-- The results of the combiners. (metrics_plots_and_validations_evaluator.py 408–430) -/
def initial (I : Meaning H M P) : List (Computation PBody) → Results (Value H M P)
  | [] => []
  | c :: cs => match c.body with
    | .matrices b => updateWith (c.keys.map fun k => (k, Kind.metric, .hist (I.data c.preprocessors b))) (initial I cs)
    | .plot _ => initial I cs

/-- metrics_plots_and_validations_evaluator.py 131–196, 610–619, 450–456, 663–692: the plots reported for a slice. -/
def evaluate (I : Meaning H M P) (render : Name → String) (as : List PlotArgs) : Except Err (Results (Value H M P)) :=
  match allComps render as with
  | .error e => .error e
  | .ok cs => match separate cs with
    | .error e => .error e
    | .ok s => match addDerived (s.derived.map (derivedFn I render)) (initial I s.nonDerived) with
      | .error e => .error e
      | .ok d => .ok (filterKind .plot (removePrivate d))

end PlotSetup
end TFMA
