import Verif.Model.MatrixSetup

/-!
# Identity of the object detection preprocessors

metrics/preprocessors/object_detection_preprocessors.py 41–116, metrics/object_detection_confusion_matrix_metrics.py 111–177 (the
other metrics of that file are built in the same way).
-/

namespace TFMA
namespace CocoSetup

open MatrixSetup Evaluate

/-- The arguments of `BoundingBoxMatchPreprocessor` (41–54) without `name`, which the metrics do not pass. -/
structure Setting where
  classId : ℤ
  iouThreshold : Option ℚ := none
  areaRange : Option (Fl × Fl) := none
  maxNumDetections : Option ℤ := none
  classWeight : Option ℚ := none
  labelsToStack : Option (List String) := none
  predictionsToStack : Option (List String) := none
  numDetectionsKey : Option String := none
  allowMissingKey : Bool := false
  modelName : String := ""
  deriving DecidableEq

/-- 92–100: the arguments that the name of the preprocessor is generated from (metric_util.py 96–125; kept apart, i.e. assuming that
different arguments have different texts). -/
structure PName where
  classId : ℤ
  iouThreshold : Option ℚ
  areaRange : Option (Fl × Fl)
  maxNumDetections : Option ℤ
  classWeight : Option ℚ
  deriving DecidableEq

/-- 92–100. -/
def pname (s : Setting) : PName :=
  { classId := s.classId, iouThreshold := s.iouThreshold, areaRange := s.areaRange, maxNumDetections := s.maxNumDetections
    classWeight := s.classWeight }

/-- confusion_matrix_metrics.py 352–366: the computations of the matrices, with a preprocessor called `pre`; the id of a
preprocessor is its name (metric_types.py 497–503).  The content of a computation with a preprocessor includes the settings of the
preprocessor. -/
def compsWith {S : Type} (pre modelName : String) (render : Name → String) (s : S) (r : Request) :
    Except Err (List (Computation (Body × Option S))) :=
  (computations { r with preprocessors := [pre], modelName := modelName }).map fun cs => cs.map fun c =>
    { kind := c.kind, className := c.className, keys := c.keys.map (Key.text render), preprocessors := c.preprocessors
      body := (c.body, if c.preprocessors = [] then none else some s) }

/-- object_detection_confusion_matrix_metrics.py 174–199 (and 328, 481, 628, 789). -/
def comps (renderPre : PName → String) (render : Name → String) (s : Setting) (r : Request) :
    Except Err (List (Computation (Body × Option Setting))) :=
  compsWith (renderPre (pname s)) s.modelName render s r

/-- The arguments of `SetMatchPreprocessor` (preprocessors/set_match_preprocessors.py 39–48) without `name`. -/
structure SetSetting where
  predictionClassKey : String := "classes"
  predictionScoreKey : String := "scores"
  classKey : Option String := none
  weightKey : Option String := none
  topK : Option ℤ := none
  modelName : String := ""
  deriving DecidableEq

/-- preprocessors/set_match_preprocessors.py 105–108: the name is generated from `top_k` only; set_match_confusion_matrix_metrics.py
113–146, 239–271: a weight key turns example weights on. -/
def setComps (renderPre : Option ℤ → String) (render : Name → String) (s : SetSetting) (r : Request) :
    Except Err (List (Computation (Body × Option SetSetting))) :=
  compsWith (renderPre s.topK) s.modelName render s
    { r with exampleWeighted := if truthyText s.weightKey then true else r.exampleWeighted }

end CocoSetup
end TFMA
