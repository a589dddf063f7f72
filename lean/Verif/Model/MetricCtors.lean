import Verif.Py.Basic
import Mathlib.Data.Rat.Init
import Mathlib.Data.Nat.Notation

/-!
# The constructors of the metrics, their configs, and metrics made from configs

`metrics/metric_types.py` 823–881 (`Metric.__init__`, `get_config`, `from_config`), `get_config` of
`metrics/confusion_matrix_metrics.py` 278–288 and 669–676, and the constructors of all metrics, one definition each.

A constructor takes named parameters, perhaps with defaults, and perhaps any others (`**kwargs`), checks some of them and
calls the constructor of its base class with named arguments; the last one calls `Metric.__init__`, which keeps the
arguments as `kwargs`. A call by position is not modelled, and neither is `create_computations_fn`. Configs are the
dictionaries `get_config` returns; that they are written and read as JSON is C122.
-/

namespace TFMA
namespace MetricCtors

variable {V : Type}

/-- An argument: None, a truth value, a text, a number (`num` a float), a list of numbers or texts, or something else, which counts
as true. -/
inductive Val (V : Type) where
  | none
  | bool (b : Bool)
  | str (s : String)
  | int (n : Int)
  | num (q : Rat)
  | nums (l : List Rat)
  | texts (l : List String)
  | other (v : V)

/-- Whether python takes the value for true. -/
def truthy : Val V → Bool
  | .none => false
  | .bool b => b
  | .str s => s != ""
  | .int n => n != 0
  | .num q => q != 0
  | .nums l => !l.isEmpty
  | .texts l => !l.isEmpty
  | .other _ => true

/-- `value is None`. -/
def isNone : Val V → Bool
  | .none => true
  | _ => false

/-- The values of the parameters of a constructor. -/
abbrev Env (V : Type) := String → Val V

/-- What a constructor passes on under a name: one of its parameters; a value of its own; a parameter if it is true and otherwise
something made of another one; or something made of all of them. -/
inductive Src (V : Type) where
  | param (p : String)
  | const (v : Val V)
  | orElse (p q : String) (f : Val V → Val V)
  | fn (g : Env V → Val V)

/-- The value passed on. -/
def Src.eval (env : Env V) : Src V → Val V
  | .param p => env p
  | .const v => v
  | .orElse p q f => if truthy (env p) then env p else f (env q)
  | .fn g => g env

/-- A constructor: its parameters with their defaults, whether it takes any others and passes them on, what it passes on, and the
parameters it checks. -/
structure Ctor (V : Type) where
  params : List (String × Option (Val V))
  extras : Bool := false
  passes : List (String × Src V)
  checks : List (String × (Val V → Except Err Unit)) := []

/-- Whether the constructor has a parameter of that name. -/
def Ctor.has (c : Ctor V) (p : String) : Bool := Dict.has c.params p

/-- A call by python with named arguments: the values of the parameters, and the other arguments. -/
def bind (c : Ctor V) (kw : Dict String (Val V)) : Except Err (Env V × Dict String (Val V)) :=
  if kw.any fun x => !c.has x.1 && !c.extras then .error .typeError
  else if c.params.any fun p => p.2.isNone && !Dict.has kw p.1 then .error .typeError
  else .ok (fun p => match Dict.get? kw p with
    | some v => v
    | none => ((Dict.get? c.params p).bind id).getD .none, kw.filter fun x => !c.has x.1)

/-- The checks of a constructor in order. -/
def runChecks (env : Env V) : List (String × (Val V → Except Err Unit)) → Except Err Unit
  | [] => .ok ()
  | (p, f) :: rest => match f (env p) with
    | .error e => .error e
    | .ok _ => runChecks env rest

/-- The arguments for the constructor of the base class; python refuses an argument given twice with TypeError. -/
def body (c : Ctor V) (env : Env V) (x : Dict String (Val V)) : Except Err (Dict String (Val V)) :=
  match runChecks env c.checks with
  | .error e => .error e
  | .ok _ =>
    let explicit : Dict String (Val V) := c.passes.map fun s => (s.1, s.2.eval env)
    if x.any fun y => Dict.has explicit y.1 then .error .typeError
    else .ok (explicit ++ x)

/-- A constructor: from its arguments to those of the constructor of its base class. -/
def call (c : Ctor V) (kw : Dict String (Val V)) : Except Err (Dict String (Val V)) :=
  match bind c kw with
  | .error e => .error e
  | .ok (env, x) => body c env x

/-- The constructors of a class and its bases, one after the other. -/
def construct : List (Ctor V) → Dict String (Val V) → Except Err (Dict String (Val V))
  | [], kw => .ok kw
  | c :: cs, kw => match call c kw with
    | .error e => .error e
    | .ok kw' => construct cs kw'

/-- A metric object. -/
structure Metric (V : Type) where
  name : Val V
  kwargs : Dict String (Val V)

/-- metrics/metric_types.py 849–857 `Metric.__init__`; `dflt` is `_default_name()`. -/
def init (dflt : Option String) (kw : Dict String (Val V)) : Metric V :=
  match Dict.get? kw "name" with
  | none => ⟨.none, kw⟩
  | some v =>
    if !truthy v && dflt.getD "" != "" then ⟨.str (dflt.getD ""), Dict.set kw "name" (.str (dflt.getD ""))⟩
    else ⟨v, kw⟩

/-- A class of metrics. -/
structure Class (V : Type) where
  name : String
  ctors : List (Ctor V)
  dflt : Option String := none
  drops : List String := []
  removes : List String := []

/-- A metric object made of named arguments. -/
def Class.make (c : Class V) (kw : Dict String (Val V)) : Except Err (Metric V) :=
  match construct c.ctors kw with
  | .error e => .error e
  | .ok k => .ok (init c.dflt k)

/-- metrics/confusion_matrix_metrics.py 284–288: entries that are None are left out. -/
def dropNone : List String → Dict String (Val V) → Except Err (Dict String (Val V))
  | [], kw => .ok kw
  | a :: as, kw => match Dict.get? kw a with
    | none => .error .keyError
    | some v => dropNone as (if isNone v then Dict.del kw a else kw)

/-- metrics/confusion_matrix_metrics.py 675: an entry is left out. -/
def removeAll : List String → Dict String (Val V) → Except Err (Dict String (Val V))
  | [], kw => .ok kw
  | a :: as, kw => if Dict.has kw a then removeAll as (Dict.del kw a) else .error .keyError

/-- `get_config`: metrics/metric_types.py 867–869, and what confusion_matrix_metrics.py 278–288 and 669–676 leave out. -/
def Class.getConfig (c : Class V) (m : Metric V) : Except Err (Dict String (Val V)) :=
  match dropNone c.drops m.kwargs with
  | .error e => .error e
  | .ok kw => removeAll c.removes kw

/-- metrics/metric_types.py 871–876 `from_config`. -/
def Class.fromConfig (c : Class V) (cfg : Dict String (Val V)) : Except Err (Metric V) := c.make (Dict.del cfg "fn")

/-! ### parts of constructors -/

/-- The arguments `get_config` of the confusion matrix metrics leaves out if they are None. (metrics/confusion_matrix_metrics.py 285) -/
def droppable : List String := ["thresholds", "num_thresholds", "top_k", "class_id"]

/-- `r < 0 or r > 1` is refused. (metrics/confusion_matrix_metrics.py 874–879) -/
def inRange (q : Rat) : Except Err Unit := if q < 0 ∨ 1 < q then .error .valueError else .ok ()

/-- All numbers of a list in turn. (metrics/confusion_matrix_metrics.py 874–879) -/
def inRangeAll : List Rat → Except Err Unit
  | [] => .ok ()
  | q :: l => match inRange q with
    | .error e => .error e
    | .ok _ => inRangeAll l

/-- metrics/confusion_matrix_metrics.py 874–879 (also 2966–2971, and metrics/object_detection_confusion_matrix_metrics.py
107–112, 722–727): a float, or all of a list; what is neither is refused with TypeError (a whole number cannot be iterated). An empty
text passes. -/
def rangeEach : Val V → Except Err Unit
  | .num q => inRange q
  | .nums l => inRangeAll l
  | .texts [] => .ok ()
  | .str s => if s = "" then .ok () else .error .typeError
  | _ => .error .typeError

/-- metrics/confusion_matrix_metrics.py 956–960 and 1033–1037: a number. -/
def rangeOne : Val V → Except Err Unit
  | .num q => inRange q
  | .int n => inRange n
  | .bool _ => .ok ()
  | _ => .error .typeError

/-- metrics/exact_match.py 44–48; the only allowed value is "json" (24). -/
def convertTo (v : Val V) : Except Err Unit :=
  if truthy v then (match v with
    | .str s => if s = "json" then .ok () else .error .valueError
    | _ => .error .valueError)
  else .ok ()

/-- metrics/stats.py 154: the default name of a mean. A path which is no list of texts is not modelled. -/
def meanName : Val V → Val V
  | .texts l => .str ("mean_" ++ ".".intercalate l)
  | _ => .str "mean_"

/-- `np.linspace(0, 1, n)`. -/
def linspace01 (n : ℕ) : Val V := .nums ((List.range n).map fun i : ℕ => if n = 1 then 0 else ((i : Int) : Rat) / (((n - 1 : ℕ) : Int) : Rat))

/-- metrics/object_detection_metrics.py 99–104: the recalls at which precision is taken; a number of recalls which is no whole number
is not modelled. -/
def cocoRecalls (env : Env V) : Val V :=
  if !isNone (env "recalls") then env "recalls"
  else if !isNone (env "num_recalls") then (match env "num_recalls" with
    | .int n => linspace01 n.toNat
    | v => v)
  else linspace01 101


/-! ### the constructors -/

/-- metrics/attributions.py 56–68 `MeanAttributions.__init__`. -/
def cMeanAttributions : Ctor V where
  params := [("name", some (.str "mean_attributions"))]
  passes := [("name", .param "name")]

/-- metrics/attributions.py 77–89 `MeanAbsoluteAttributions.__init__`. -/
def cMeanAbsoluteAttributions : Ctor V where
  params := [("name", some (.str "mean_absolute_attributions"))]
  passes := [("name", .param "name")]

/-- metrics/attributions.py 158–170 `TotalAttributions.__init__`. -/
def cTotalAttributions : Ctor V where
  params := [("name", some (.str "total_attributions"))]
  passes := [("name", .param "name")]

/-- metrics/attributions.py 179–191 `TotalAbsoluteAttributions.__init__`. -/
def cTotalAbsoluteAttributions : Ctor V where
  params := [("name", some (.str "total_absolute_attributions"))]
  passes := [("name", .param "name")]

/-- metrics/bleu.py 453–475 `Bleu.__init__`. -/
def cBleu : Ctor V where
  params := [("name", some (.str "BLEU")), ("lowercase", some (.bool false)), ("force", some (.bool false)),
    ("tokenize", some (.str "13a")), ("smooth_method", some (.str "exp")), ("smooth_value", some .none),
    ("use_effective_order", some (.bool false))]
  passes := [("name", .param "name"), ("lowercase", .param "lowercase"), ("force", .param "force"),
    ("tokenize", .param "tokenize"), ("smooth_method", .param "smooth_method"), ("smooth_value", .param "smooth_value"),
    ("effective_order", .param "use_effective_order")]

/-- metrics/calibration.py 33–40 `MeanLabel.__init__`. -/
def cMeanLabel : Ctor V where
  params := [("name", some (.str "mean_label"))]
  passes := [("name", .param "name")]

/-- metrics/calibration.py 98–107 `MeanPrediction.__init__`. -/
def cMeanPrediction : Ctor V where
  params := [("name", some (.str "mean_prediction"))]
  passes := [("name", .param "name")]

/-- metrics/calibration.py 169–178 `Calibration.__init__`. -/
def cCalibration : Ctor V where
  params := [("name", some (.str "calibration"))]
  passes := [("name", .param "name")]

/-- metrics/calibration_plot.py 36–61 `CalibrationPlot.__init__`. -/
def cCalibrationPlot : Ctor V where
  params := [("num_buckets", some (.int 1000)), ("left", some .none), ("right", some .none),
    ("name", some (.str "calibration_plot"))]
  passes := [("num_buckets", .param "num_buckets"), ("left", .param "left"), ("right", .param "right"),
    ("name", .param "name")]

/-- metrics/confusion_matrix_metrics.py 228–272 `ConfusionMatrixMetricBase.__init__`. -/
def cConfusionMatrixMetricBase : Ctor V where
  params := [("thresholds", some .none), ("num_thresholds", some .none), ("top_k", some .none),
    ("class_id", some .none), ("name", some .none), ("preprocessors", some .none)]
  extras := true
  passes := [("thresholds", .param "thresholds"), ("num_thresholds", .param "num_thresholds"),
    ("top_k", .param "top_k"), ("class_id", .param "class_id"), ("name", .param "name")]

/-- metrics/confusion_matrix_metrics.py 385–424 `ConfusionMatrixMetric.__init__`. -/
def cConfusionMatrixMetric : Ctor V where
  params := [("thresholds", some .none), ("num_thresholds", some .none), ("top_k", some .none),
    ("class_id", some .none), ("name", some .none)]
  extras := true
  passes := [("thresholds", .param "thresholds"), ("num_thresholds", .param "num_thresholds"),
    ("top_k", .param "top_k"), ("class_id", .param "class_id"), ("name", .param "name")]

/-- metrics/confusion_matrix_metrics.py 499–551 `AUC.__init__`. -/
def cAUC : Ctor V where
  params := [("num_thresholds", some .none), ("curve", some (.str "ROC")),
    ("summation_method", some (.str "interpolation")), ("name", some .none), ("thresholds", some .none),
    ("top_k", some .none), ("class_id", some .none)]
  passes := [("num_thresholds", .param "num_thresholds"), ("thresholds", .param "thresholds"),
    ("curve", .param "curve"), ("summation_method", .param "summation_method"), ("name", .param "name"),
    ("top_k", .param "top_k"), ("class_id", .param "class_id")]

/-- metrics/confusion_matrix_metrics.py 619–667 `AUCPrecisionRecall.__init__`. -/
def cAUCPrecisionRecall : Ctor V where
  params := [("num_thresholds", some .none), ("summation_method", some (.str "interpolation")), ("name", some .none),
    ("thresholds", some .none), ("top_k", some .none), ("class_id", some .none)]
  passes := [("num_thresholds", .param "num_thresholds"), ("thresholds", .param "thresholds"),
    ("curve", .const (.str "PR")), ("summation_method", .param "summation_method"), ("name", .param "name"),
    ("top_k", .param "top_k"), ("class_id", .param "class_id")]

/-- metrics/confusion_matrix_metrics.py 703–737 `SensitivityAtSpecificity.__init__`. -/
def cSensitivityAtSpecificity : Ctor V where
  params := [("specificity", none), ("num_thresholds", some .none), ("class_id", some .none), ("name", some .none),
    ("top_k", some .none)]
  passes := [("num_thresholds", .param "num_thresholds"), ("specificity", .param "specificity"),
    ("class_id", .param "class_id"), ("name", .param "name"), ("top_k", .param "top_k")]

/-- metrics/confusion_matrix_metrics.py 777–811 `SpecificityAtSensitivity.__init__`. -/
def cSpecificityAtSensitivity : Ctor V where
  params := [("sensitivity", none), ("num_thresholds", some .none), ("class_id", some .none), ("name", some .none),
    ("top_k", some .none)]
  passes := [("num_thresholds", .param "num_thresholds"), ("sensitivity", .param "sensitivity"),
    ("class_id", .param "class_id"), ("name", .param "name"), ("top_k", .param "top_k")]

/-- metrics/confusion_matrix_metrics.py 843–892 `PrecisionAtRecall.__init__`. -/
def cPrecisionAtRecall : Ctor V where
  params := [("recall", none), ("thresholds", some .none), ("num_thresholds", some .none), ("class_id", some .none),
    ("name", some .none), ("top_k", some .none)]
  extras := true
  passes := [("thresholds", .param "thresholds"), ("num_thresholds", .param "num_thresholds"),
    ("recall", .param "recall"), ("class_id", .param "class_id"), ("name", .param "name"), ("top_k", .param "top_k")]
  checks := [("recall", rangeEach)]

/-- metrics/confusion_matrix_metrics.py 929–968 `RecallAtPrecision.__init__`. -/
def cRecallAtPrecision : Ctor V where
  params := [("precision", none), ("num_thresholds", some .none), ("class_id", some .none), ("name", some .none),
    ("top_k", some .none)]
  passes := [("num_thresholds", .param "num_thresholds"), ("precision", .param "precision"),
    ("class_id", .param "class_id"), ("name", .param "name"), ("top_k", .param "top_k")]
  checks := [("precision", rangeOne)]

/-- metrics/confusion_matrix_metrics.py 1006–1045 `RecallAtFalsePositiveRate.__init__`. -/
def cRecallAtFalsePositiveRate : Ctor V where
  params := [("false_positive_rate", none), ("num_thresholds", some .none), ("class_id", some .none),
    ("name", some .none), ("top_k", some .none)]
  passes := [("false_positive_rate", .param "false_positive_rate"), ("num_thresholds", .param "num_thresholds"),
    ("class_id", .param "class_id"), ("name", .param "name"), ("top_k", .param "top_k")]
  checks := [("false_positive_rate", rangeOne)]

/-- metrics/confusion_matrix_metrics.py 1083–1114 `TruePositives.__init__`. -/
def cTruePositives : Ctor V where
  params := [("thresholds", some .none), ("name", some .none), ("top_k", some .none), ("class_id", some .none)]
  passes := [("thresholds", .param "thresholds"), ("name", .param "name"), ("top_k", .param "top_k"),
    ("class_id", .param "class_id")]

/-- metrics/confusion_matrix_metrics.py 1129–1139 `TP.__init__`. -/
def cTP : Ctor V where
  params := [("thresholds", some .none), ("name", some .none), ("top_k", some .none), ("class_id", some .none)]
  passes := [("thresholds", .param "thresholds"), ("name", .param "name"), ("top_k", .param "top_k"),
    ("class_id", .param "class_id")]

/-- metrics/confusion_matrix_metrics.py 1158–1189 `TrueNegatives.__init__`. -/
def cTrueNegatives : Ctor V where
  params := [("thresholds", some .none), ("name", some .none), ("top_k", some .none), ("class_id", some .none)]
  passes := [("thresholds", .param "thresholds"), ("name", .param "name"), ("top_k", .param "top_k"),
    ("class_id", .param "class_id")]

/-- metrics/confusion_matrix_metrics.py 1204–1214 `TN.__init__`. -/
def cTN : Ctor V where
  params := [("thresholds", some .none), ("name", some .none), ("top_k", some .none), ("class_id", some .none)]
  passes := [("thresholds", .param "thresholds"), ("name", .param "name"), ("top_k", .param "top_k"),
    ("class_id", .param "class_id")]

/-- metrics/confusion_matrix_metrics.py 1233–1264 `FalsePositives.__init__`. -/
def cFalsePositives : Ctor V where
  params := [("thresholds", some .none), ("name", some .none), ("top_k", some .none), ("class_id", some .none)]
  passes := [("thresholds", .param "thresholds"), ("name", .param "name"), ("top_k", .param "top_k"),
    ("class_id", .param "class_id")]

/-- metrics/confusion_matrix_metrics.py 1279–1289 `FP.__init__`. -/
def cFP : Ctor V where
  params := [("thresholds", some .none), ("name", some .none), ("top_k", some .none), ("class_id", some .none)]
  passes := [("thresholds", .param "thresholds"), ("name", .param "name"), ("top_k", .param "top_k"),
    ("class_id", .param "class_id")]

/-- metrics/confusion_matrix_metrics.py 1308–1339 `FalseNegatives.__init__`. -/
def cFalseNegatives : Ctor V where
  params := [("thresholds", some .none), ("name", some .none), ("top_k", some .none), ("class_id", some .none)]
  passes := [("thresholds", .param "thresholds"), ("name", .param "name"), ("top_k", .param "top_k"),
    ("class_id", .param "class_id")]

/-- metrics/confusion_matrix_metrics.py 1354–1364 `FN.__init__`. -/
def cFN : Ctor V where
  params := [("thresholds", some .none), ("name", some .none), ("top_k", some .none), ("class_id", some .none)]
  passes := [("thresholds", .param "thresholds"), ("name", .param "name"), ("top_k", .param "top_k"),
    ("class_id", .param "class_id")]

/-- metrics/confusion_matrix_metrics.py 1382–1413 `BinaryAccuracy.__init__`. -/
def cBinaryAccuracy : Ctor V where
  params := [("threshold", some .none), ("top_k", some .none), ("class_id", some .none), ("name", some .none)]
  passes := [("thresholds", .param "threshold"), ("top_k", .param "top_k"), ("class_id", .param "class_id"),
    ("name", .param "name")]

/-- metrics/confusion_matrix_metrics.py 1435–1470 `Precision.__init__`. -/
def cPrecision : Ctor V where
  params := [("thresholds", some .none), ("top_k", some .none), ("class_id", some .none), ("name", some .none)]
  extras := true
  passes := [("thresholds", .param "thresholds"), ("top_k", .param "top_k"), ("class_id", .param "class_id"),
    ("name", .param "name")]

/-- metrics/confusion_matrix_metrics.py 1486–1496 `PPV.__init__`. -/
def cPPV : Ctor V where
  params := [("thresholds", some .none), ("name", some .none), ("top_k", some .none), ("class_id", some .none)]
  passes := [("thresholds", .param "thresholds"), ("name", .param "name"), ("top_k", .param "top_k"),
    ("class_id", .param "class_id")]

/-- metrics/confusion_matrix_metrics.py 1515–1550 `Recall.__init__`. -/
def cRecall : Ctor V where
  params := [("thresholds", some .none), ("top_k", some .none), ("class_id", some .none), ("name", some .none)]
  extras := true
  passes := [("thresholds", .param "thresholds"), ("top_k", .param "top_k"), ("class_id", .param "class_id"),
    ("name", .param "name")]

/-- metrics/confusion_matrix_metrics.py 1566–1576 `TPR.__init__`. -/
def cTPR : Ctor V where
  params := [("thresholds", some .none), ("name", some .none), ("top_k", some .none), ("class_id", some .none)]
  passes := [("thresholds", .param "thresholds"), ("name", .param "name"), ("top_k", .param "top_k"),
    ("class_id", .param "class_id")]

/-- metrics/confusion_matrix_metrics.py 1588–1616 `Specificity.__init__`. -/
def cSpecificity : Ctor V where
  params := [("thresholds", some .none), ("name", some .none), ("top_k", some .none), ("class_id", some .none)]
  passes := [("thresholds", .param "thresholds"), ("name", .param "name"), ("top_k", .param "top_k"),
    ("class_id", .param "class_id")]

/-- metrics/confusion_matrix_metrics.py 1632–1642 `TNR.__init__`. -/
def cTNR : Ctor V where
  params := [("thresholds", some .none), ("name", some .none), ("top_k", some .none), ("class_id", some .none)]
  passes := [("thresholds", .param "thresholds"), ("name", .param "name"), ("top_k", .param "top_k"),
    ("class_id", .param "class_id")]

/-- metrics/confusion_matrix_metrics.py 1654–1681 `FallOut.__init__`. -/
def cFallOut : Ctor V where
  params := [("thresholds", some .none), ("name", some .none), ("top_k", some .none), ("class_id", some .none)]
  passes := [("thresholds", .param "thresholds"), ("name", .param "name"), ("top_k", .param "top_k"),
    ("class_id", .param "class_id")]

/-- metrics/confusion_matrix_metrics.py 1697–1707 `FPR.__init__`. -/
def cFPR : Ctor V where
  params := [("thresholds", some .none), ("name", some .none), ("top_k", some .none), ("class_id", some .none)]
  passes := [("thresholds", .param "thresholds"), ("name", .param "name"), ("top_k", .param "top_k"),
    ("class_id", .param "class_id")]

/-- metrics/confusion_matrix_metrics.py 1719–1746 `MissRate.__init__`. -/
def cMissRate : Ctor V where
  params := [("thresholds", some .none), ("name", some .none), ("top_k", some .none), ("class_id", some .none)]
  passes := [("thresholds", .param "thresholds"), ("name", .param "name"), ("top_k", .param "top_k"),
    ("class_id", .param "class_id")]

/-- metrics/confusion_matrix_metrics.py 1762–1772 `FNR.__init__`. -/
def cFNR : Ctor V where
  params := [("thresholds", some .none), ("name", some .none), ("top_k", some .none), ("class_id", some .none)]
  passes := [("thresholds", .param "thresholds"), ("name", .param "name"), ("top_k", .param "top_k"),
    ("class_id", .param "class_id")]

/-- metrics/confusion_matrix_metrics.py 1784–1811 `NegativePredictiveValue.__init__`. -/
def cNegativePredictiveValue : Ctor V where
  params := [("thresholds", some .none), ("name", some .none), ("top_k", some .none), ("class_id", some .none)]
  passes := [("thresholds", .param "thresholds"), ("name", .param "name"), ("top_k", .param "top_k"),
    ("class_id", .param "class_id")]

/-- metrics/confusion_matrix_metrics.py 1827–1837 `NPV.__init__`. -/
def cNPV : Ctor V where
  params := [("thresholds", some .none), ("name", some .none), ("top_k", some .none), ("class_id", some .none)]
  passes := [("thresholds", .param "thresholds"), ("name", .param "name"), ("top_k", .param "top_k"),
    ("class_id", .param "class_id")]

/-- metrics/confusion_matrix_metrics.py 1849–1876 `FalseDiscoveryRate.__init__`. -/
def cFalseDiscoveryRate : Ctor V where
  params := [("thresholds", some .none), ("name", some .none), ("top_k", some .none), ("class_id", some .none)]
  passes := [("thresholds", .param "thresholds"), ("name", .param "name"), ("top_k", .param "top_k"),
    ("class_id", .param "class_id")]

/-- metrics/confusion_matrix_metrics.py 1892–1919 `FalseOmissionRate.__init__`. -/
def cFalseOmissionRate : Ctor V where
  params := [("thresholds", some .none), ("name", some .none), ("top_k", some .none), ("class_id", some .none)]
  passes := [("thresholds", .param "thresholds"), ("name", .param "name"), ("top_k", .param "top_k"),
    ("class_id", .param "class_id")]

/-- metrics/confusion_matrix_metrics.py 1935–1962 `Prevalence.__init__`. -/
def cPrevalence : Ctor V where
  params := [("thresholds", some .none), ("name", some .none), ("top_k", some .none), ("class_id", some .none)]
  passes := [("thresholds", .param "thresholds"), ("name", .param "name"), ("top_k", .param "top_k"),
    ("class_id", .param "class_id")]

/-- metrics/confusion_matrix_metrics.py 1977–2004 `PrevalenceThreshold.__init__`. -/
def cPrevalenceThreshold : Ctor V where
  params := [("thresholds", some .none), ("name", some .none), ("top_k", some .none), ("class_id", some .none)]
  passes := [("thresholds", .param "thresholds"), ("name", .param "name"), ("top_k", .param "top_k"),
    ("class_id", .param "class_id")]

/-- metrics/confusion_matrix_metrics.py 2026–2053 `ThreatScore.__init__`. -/
def cThreatScore : Ctor V where
  params := [("thresholds", some .none), ("name", some .none), ("top_k", some .none), ("class_id", some .none)]
  passes := [("thresholds", .param "thresholds"), ("name", .param "name"), ("top_k", .param "top_k"),
    ("class_id", .param "class_id")]

/-- metrics/confusion_matrix_metrics.py 2069–2096 `BalancedAccuracy.__init__`. -/
def cBalancedAccuracy : Ctor V where
  params := [("thresholds", some .none), ("name", some .none), ("top_k", some .none), ("class_id", some .none)]
  passes := [("thresholds", .param "thresholds"), ("name", .param "name"), ("top_k", .param "top_k"),
    ("class_id", .param "class_id")]

/-- metrics/confusion_matrix_metrics.py 2118–2145 `F1Score.__init__`. -/
def cF1Score : Ctor V where
  params := [("thresholds", some .none), ("name", some .none), ("top_k", some .none), ("class_id", some .none)]
  passes := [("thresholds", .param "thresholds"), ("name", .param "name"), ("top_k", .param "top_k"),
    ("class_id", .param "class_id")]

/-- metrics/confusion_matrix_metrics.py 2166–2193 `MatthewsCorrelationCoefficient.__init__`. -/
def cMatthewsCorrelationCoefficient : Ctor V where
  params := [("thresholds", some .none), ("name", some .none), ("top_k", some .none), ("class_id", some .none)]
  passes := [("thresholds", .param "thresholds"), ("name", .param "name"), ("top_k", .param "top_k"),
    ("class_id", .param "class_id")]

/-- metrics/confusion_matrix_metrics.py 2211–2238 `FowlkesMallowsIndex.__init__`. -/
def cFowlkesMallowsIndex : Ctor V where
  params := [("thresholds", some .none), ("name", some .none), ("top_k", some .none), ("class_id", some .none)]
  passes := [("thresholds", .param "thresholds"), ("name", .param "name"), ("top_k", .param "top_k"),
    ("class_id", .param "class_id")]

/-- metrics/confusion_matrix_metrics.py 2261–2288 `Informedness.__init__`. -/
def cInformedness : Ctor V where
  params := [("thresholds", some .none), ("name", some .none), ("top_k", some .none), ("class_id", some .none)]
  passes := [("thresholds", .param "thresholds"), ("name", .param "name"), ("top_k", .param "top_k"),
    ("class_id", .param "class_id")]

/-- metrics/confusion_matrix_metrics.py 2310–2337 `Markedness.__init__`. -/
def cMarkedness : Ctor V where
  params := [("thresholds", some .none), ("name", some .none), ("top_k", some .none), ("class_id", some .none)]
  passes := [("thresholds", .param "thresholds"), ("name", .param "name"), ("top_k", .param "top_k"),
    ("class_id", .param "class_id")]

/-- metrics/confusion_matrix_metrics.py 2359–2386 `PositiveLikelihoodRatio.__init__`. -/
def cPositiveLikelihoodRatio : Ctor V where
  params := [("thresholds", some .none), ("name", some .none), ("top_k", some .none), ("class_id", some .none)]
  passes := [("thresholds", .param "thresholds"), ("name", .param "name"), ("top_k", .param "top_k"),
    ("class_id", .param "class_id")]

/-- metrics/confusion_matrix_metrics.py 2408–2435 `NegativeLikelihoodRatio.__init__`. -/
def cNegativeLikelihoodRatio : Ctor V where
  params := [("thresholds", some .none), ("name", some .none), ("top_k", some .none), ("class_id", some .none)]
  passes := [("thresholds", .param "thresholds"), ("name", .param "name"), ("top_k", .param "top_k"),
    ("class_id", .param "class_id")]

/-- metrics/confusion_matrix_metrics.py 2457–2484 `DiagnosticOddsRatio.__init__`. -/
def cDiagnosticOddsRatio : Ctor V where
  params := [("thresholds", some .none), ("name", some .none), ("top_k", some .none), ("class_id", some .none)]
  passes := [("thresholds", .param "thresholds"), ("name", .param "name"), ("top_k", .param "top_k"),
    ("class_id", .param "class_id")]

/-- metrics/confusion_matrix_metrics.py 2502–2529 `PredictedPositiveRate.__init__`. -/
def cPredictedPositiveRate : Ctor V where
  params := [("thresholds", some .none), ("name", some .none), ("top_k", some .none), ("class_id", some .none)]
  passes := [("thresholds", .param "thresholds"), ("name", .param "name"), ("top_k", .param "top_k"),
    ("class_id", .param "class_id")]

/-- metrics/confusion_matrix_metrics.py 2546–2586 `ConfusionMatrixFeatureSamplerBase.__init__`. -/
def cConfusionMatrixFeatureSamplerBase : Ctor V where
  params := [("feature_key", none), ("sample_size", none), ("threshold", none), ("name", some .none),
    ("top_k", some .none), ("class_id", some .none)]
  passes := [("threshold", .param "threshold"), ("feature_key", .param "feature_key"),
    ("sample_size", .param "sample_size"), ("name", .param "name"), ("top_k", .param "top_k"),
    ("class_id", .param "class_id")]

/-- metrics/confusion_matrix_metrics.py 2668–2707 `FalsePositiveFeatureSampler.__init__`. -/
def cFalsePositiveFeatureSampler : Ctor V where
  params := [("feature_key", none), ("sample_size", none), ("threshold", some (.num (1 / 2))), ("name", some .none),
    ("top_k", some .none), ("class_id", some .none)]
  passes := [("feature_key", .param "feature_key"), ("sample_size", .param "sample_size"),
    ("threshold", .param "threshold"), ("name", .param "name"), ("top_k", .param "top_k"),
    ("class_id", .param "class_id")]

/-- metrics/confusion_matrix_metrics.py 2724–2763 `FalseNegativeFeatureSampler.__init__`. -/
def cFalseNegativeFeatureSampler : Ctor V where
  params := [("feature_key", none), ("sample_size", none), ("threshold", some (.num (1 / 2))), ("name", some .none),
    ("top_k", some .none), ("class_id", some .none)]
  passes := [("feature_key", .param "feature_key"), ("sample_size", .param "sample_size"),
    ("threshold", .param "threshold"), ("name", .param "name"), ("top_k", .param "top_k"),
    ("class_id", .param "class_id")]

/-- metrics/confusion_matrix_metrics.py 2780–2811 `ConfusionMatrixAtThresholds.__init__`. -/
def cConfusionMatrixAtThresholds : Ctor V where
  params := [("thresholds", none), ("name", some .none), ("top_k", some .none), ("class_id", some .none)]
  passes := [("thresholds", .param "thresholds"), ("name", .param "name"), ("top_k", .param "top_k"),
    ("class_id", .param "class_id")]

/-- metrics/confusion_matrix_metrics.py 2887–2919 `MaxRecall.__init__`. -/
def cMaxRecall : Ctor V where
  params := [("top_k", some .none), ("class_id", some .none), ("name", some .none)]
  extras := true
  passes := [("thresholds", .const (.num (1 / 1000000000000))), ("top_k", .param "top_k"),
    ("class_id", .param "class_id"), ("name", .param "name")]

/-- metrics/confusion_matrix_metrics.py 2935–2984 `ThresholdAtRecall.__init__`. -/
def cThresholdAtRecall : Ctor V where
  params := [("recall", none), ("thresholds", some .none), ("num_thresholds", some .none), ("class_id", some .none),
    ("name", some .none), ("top_k", some .none)]
  extras := true
  passes := [("thresholds", .param "thresholds"), ("num_thresholds", .param "num_thresholds"),
    ("recall", .param "recall"), ("class_id", .param "class_id"), ("name", .param "name"), ("top_k", .param "top_k")]
  checks := [("recall", rangeEach)]

/-- metrics/confusion_matrix_plot.py 33–55 `ConfusionMatrixPlot.__init__`. -/
def cConfusionMatrixPlot : Ctor V where
  params := [("num_thresholds", some (.int 1000)), ("name", some (.str "confusion_matrix_plot"))]
  extras := true
  passes := [("num_thresholds", .param "num_thresholds"), ("name", .param "name")]

/-- metrics/cross_entropy_metrics.py 37–60 `BinaryCrossEntropy.__init__`. -/
def cBinaryCrossEntropy : Ctor V where
  params := [("name", some (.str "binary_crossentropy")), ("from_logits", some (.bool false)),
    ("label_smoothing", some (.num 0))]
  passes := [("name", .param "name"), ("from_logits", .param "from_logits"),
    ("label_smoothing", .param "label_smoothing")]

/-- metrics/cross_entropy_metrics.py 132–156 `CategoricalCrossEntropy.__init__`. -/
def cCategoricalCrossEntropy : Ctor V where
  params := [("name", some (.str "categorical_crossentropy")), ("from_logits", some (.bool false)),
    ("label_smoothing", some (.num 0))]
  passes := [("name", .param "name"), ("from_logits", .param "from_logits"),
    ("label_smoothing", .param "label_smoothing")]

/-- metrics/exact_match.py 32–48 `ExactMatch.__init__`. -/
def cExactMatch : Ctor V where
  params := [("name", some (.str "exact_match")), ("convert_to", some .none)]
  passes := [("name", .param "name"), ("convert_to", .param "convert_to")]
  checks := [("convert_to", convertTo)]

/-- metrics/example_count.py 35–42 `ExampleCount.__init__`. -/
def cExampleCount : Ctor V where
  params := [("name", some (.str "example_count"))]
  passes := [("name", .param "name")]

/-- metrics/flip_metrics.py 201–206 `_FlipRateBase.__init__`. -/
def cFlipRateBase : Ctor V where
  params := [("name", none), ("threshold", none)]
  passes := [("name", .param "name"), ("threshold", .param "threshold")]

/-- metrics/flip_metrics.py 340–356 `SymmetricFlipRate.__init__`. -/
def cSymmetricFlipRate : Ctor V where
  params := [("name", some (.str "symmetric_flip_rate")), ("threshold", some (.num (1 / 2)))]
  passes := [("name", .param "name"), ("threshold", .param "threshold")]

/-- metrics/flip_metrics.py 373–389 `NegToNegFlipRate.__init__`. -/
def cNegToNegFlipRate : Ctor V where
  params := [("name", some (.str "neg_to_neg_flip_rate")), ("threshold", some (.num (1 / 2)))]
  passes := [("name", .param "name"), ("threshold", .param "threshold")]

/-- metrics/flip_metrics.py 404–420 `NegToPosFlipRate.__init__`. -/
def cNegToPosFlipRate : Ctor V where
  params := [("name", some (.str "neg_to_pos_flip_rate")), ("threshold", some (.num (1 / 2)))]
  passes := [("name", .param "name"), ("threshold", .param "threshold")]

/-- metrics/flip_metrics.py 435–451 `PosToNegFlipRate.__init__`. -/
def cPosToNegFlipRate : Ctor V where
  params := [("name", some (.str "pos_to_neg_flip_rate")), ("threshold", some (.num (1 / 2)))]
  passes := [("name", .param "name"), ("threshold", .param "threshold")]

/-- metrics/flip_metrics.py 466–482 `PosToPosFlipRate.__init__`. -/
def cPosToPosFlipRate : Ctor V where
  params := [("name", some (.str "pos_to_pos_flip_rate")), ("threshold", some (.num (1 / 2)))]
  passes := [("name", .param "name"), ("threshold", .param "threshold")]

/-- metrics/flip_metrics.py 580–613 `BooleanFlipRates.__init__`. -/
def cBooleanFlipRates : Ctor V where
  params := [("threshold", some (.num (1 / 2))), ("flip_rate_name", some (.str "flip_rate")),
    ("neg_to_neg_flip_rate_name", some (.str "neg_to_neg_flip_rate")),
    ("neg_to_pos_flip_rate_name", some (.str "neg_to_pos_flip_rate")),
    ("pos_to_neg_flip_rate_name", some (.str "pos_to_neg_flip_rate")),
    ("pos_to_pos_flip_rate_name", some (.str "pos_to_pos_flip_rate"))]
  passes := [("symmetric_flip_rate_name", .param "flip_rate_name"),
    ("neg_to_neg_flip_rate_name", .param "neg_to_neg_flip_rate_name"),
    ("neg_to_pos_flip_rate_name", .param "neg_to_pos_flip_rate_name"),
    ("pos_to_neg_flip_rate_name", .param "pos_to_neg_flip_rate_name"),
    ("pos_to_pos_flip_rate_name", .param "pos_to_pos_flip_rate_name"), ("threshold", .param "threshold")]

/-- metrics/mean_regression_error.py 41–53 `MeanAbsoluteError.__init__`. -/
def cMeanAbsoluteError : Ctor V where
  params := [("name", some (.str "mean_absolute_error"))]
  extras := true
  passes := [("name", .param "name")]

/-- metrics/mean_regression_error.py 120–134 `MeanAbsolutePercentageError.__init__`. -/
def cMeanAbsolutePercentageError : Ctor V where
  params := [("name", some (.str "mean_absolute_percentage_error"))]
  extras := true
  passes := [("name", .param "name")]

/-- metrics/mean_regression_error.py 202–214 `MeanSquaredError.__init__`. -/
def cMeanSquaredError : Ctor V where
  params := [("name", some (.str "mean_squared_error"))]
  extras := true
  passes := [("name", .param "name")]

/-- metrics/mean_regression_error.py 284–298 `MeanSquaredLogarithmicError.__init__`. -/
def cMeanSquaredLogarithmicError : Ctor V where
  params := [("name", some (.str "mean_squared_logarithmic_error"))]
  extras := true
  passes := [("name", .param "name")]

/-- metrics/min_label_position.py 41–49 `MinLabelPosition.__init__`. -/
def cMinLabelPosition : Ctor V where
  params := [("name", some (.str "min_label_position")), ("label_key", some .none)]
  passes := [("name", .param "name"), ("label_key", .param "label_key")]

/-- metrics/model_cosine_similarity.py 60–61 `ModelCosineSimilarity.__init__`. -/
def cModelCosineSimilarity : Ctor V where
  params := [("name", some (.str "model_cosine_similarity"))]
  passes := [("name", .param "name")]

/-- metrics/multi_class_confusion_matrix_metrics.py 51–72 `MultiClassConfusionMatrixAtThresholds.__init__`. -/
def cMultiClassConfusionMatrixAtThresholds : Ctor V where
  params := [("thresholds", some .none), ("name", some (.str "multi_class_confusion_matrix_at_thresholds"))]
  passes := [("thresholds", .param "thresholds"), ("name", .param "name")]

/-- metrics/multi_class_confusion_matrix_plot.py 39–67 `MultiClassConfusionMatrixPlot.__init__`. -/
def cMultiClassConfusionMatrixPlot : Ctor V where
  params := [("thresholds", some .none), ("num_thresholds", some .none),
    ("name", some (.str "multi_class_confusion_matrix_plot"))]
  passes := [("thresholds", .param "thresholds"), ("num_thresholds", .param "num_thresholds"),
    ("name", .param "name")]

/-- metrics/multi_label_confusion_matrix_plot.py 72–97 `MultiLabelConfusionMatrixPlot.__init__`. -/
def cMultiLabelConfusionMatrixPlot : Ctor V where
  params := [("thresholds", some .none), ("num_thresholds", some .none),
    ("name", some (.str "multi_label_confusion_matrix_plot"))]
  passes := [("thresholds", .param "thresholds"), ("num_thresholds", .param "num_thresholds"),
    ("name", .param "name")]

/-- metrics/ndcg.py 47–62 `NDCG.__init__`. -/
def cNDCG : Ctor V where
  params := [("gain_key", none), ("top_k_list", some .none), ("name", some (.str "ndcg"))]
  passes := [("gain_key", .param "gain_key"), ("top_k_list", .param "top_k_list"), ("name", .param "name")]

/-- metrics/object_detection_confusion_matrix_metrics.py 49–130 `ObjectDetectionPrecisionAtRecall.__init__`. -/
def cObjectDetectionPrecisionAtRecall : Ctor V where
  params := [("recall", none), ("thresholds", some .none), ("num_thresholds", some .none), ("name", some .none),
    ("iou_threshold", some .none), ("class_id", some .none), ("class_weight", some .none), ("area_range", some .none),
    ("max_num_detections", some .none), ("labels_to_stack", some .none), ("predictions_to_stack", some .none),
    ("num_detections_key", some .none), ("allow_missing_key", some (.bool false))]
  passes := [("thresholds", .param "thresholds"), ("num_thresholds", .param "num_thresholds"),
    ("recall", .param "recall"), ("name", .param "name"), ("class_id", .param "class_id"),
    ("iou_threshold", .param "iou_threshold"), ("area_range", .param "area_range"),
    ("max_num_detections", .param "max_num_detections"), ("class_weight", .param "class_weight"),
    ("labels_to_stack", .param "labels_to_stack"), ("predictions_to_stack", .param "predictions_to_stack"),
    ("num_detections_key", .param "num_detections_key"), ("allow_missing_key", .param "allow_missing_key")]
  checks := [("recall", rangeEach)]

/-- metrics/object_detection_confusion_matrix_metrics.py 213–284 `ObjectDetectionRecall.__init__`. -/
def cObjectDetectionRecall : Ctor V where
  params := [("thresholds", some .none), ("name", some .none), ("iou_threshold", some .none),
    ("class_id", some .none), ("class_weight", some .none), ("area_range", some .none),
    ("max_num_detections", some .none), ("labels_to_stack", some .none), ("predictions_to_stack", some .none),
    ("num_detections_key", some .none), ("allow_missing_key", some (.bool false))]
  passes := [("thresholds", .param "thresholds"), ("name", .param "name"), ("class_id", .param "class_id"),
    ("iou_threshold", .param "iou_threshold"), ("area_range", .param "area_range"),
    ("max_num_detections", .param "max_num_detections"), ("class_weight", .param "class_weight"),
    ("labels_to_stack", .param "labels_to_stack"), ("predictions_to_stack", .param "predictions_to_stack"),
    ("num_detections_key", .param "num_detections_key"), ("allow_missing_key", .param "allow_missing_key")]

/-- metrics/object_detection_confusion_matrix_metrics.py 366–437 `ObjectDetectionPrecision.__init__`. -/
def cObjectDetectionPrecision : Ctor V where
  params := [("thresholds", some .none), ("name", some .none), ("iou_threshold", some .none),
    ("class_id", some .none), ("class_weight", some .none), ("area_range", some .none),
    ("max_num_detections", some .none), ("labels_to_stack", some .none), ("predictions_to_stack", some .none),
    ("num_detections_key", some .none), ("allow_missing_key", some (.bool false))]
  passes := [("thresholds", .param "thresholds"), ("name", .param "name"), ("class_id", .param "class_id"),
    ("iou_threshold", .param "iou_threshold"), ("area_range", .param "area_range"),
    ("max_num_detections", .param "max_num_detections"), ("class_weight", .param "class_weight"),
    ("labels_to_stack", .param "labels_to_stack"), ("predictions_to_stack", .param "predictions_to_stack"),
    ("num_detections_key", .param "num_detections_key"), ("allow_missing_key", .param "allow_missing_key")]

/-- metrics/object_detection_confusion_matrix_metrics.py 522–585 `ObjectDetectionMaxRecall.__init__`. -/
def cObjectDetectionMaxRecall : Ctor V where
  params := [("name", some .none), ("iou_threshold", some .none), ("class_id", some .none),
    ("class_weight", some .none), ("area_range", some .none), ("max_num_detections", some .none),
    ("labels_to_stack", some .none), ("predictions_to_stack", some .none), ("num_detections_key", some .none),
    ("allow_missing_key", some (.bool false))]
  passes := [("name", .param "name"), ("class_id", .param "class_id"), ("iou_threshold", .param "iou_threshold"),
    ("area_range", .param "area_range"), ("max_num_detections", .param "max_num_detections"),
    ("class_weight", .param "class_weight"), ("labels_to_stack", .param "labels_to_stack"),
    ("predictions_to_stack", .param "predictions_to_stack"), ("num_detections_key", .param "num_detections_key"),
    ("allow_missing_key", .param "allow_missing_key")]

/-- metrics/object_detection_confusion_matrix_metrics.py 664–745 `ObjectDetectionThresholdAtRecall.__init__`. -/
def cObjectDetectionThresholdAtRecall : Ctor V where
  params := [("recall", none), ("thresholds", some .none), ("num_thresholds", some .none), ("name", some .none),
    ("iou_threshold", some .none), ("class_id", some .none), ("class_weight", some .none), ("area_range", some .none),
    ("max_num_detections", some .none), ("labels_to_stack", some .none), ("predictions_to_stack", some .none),
    ("num_detections_key", some .none), ("allow_missing_key", some (.bool false))]
  passes := [("thresholds", .param "thresholds"), ("num_thresholds", .param "num_thresholds"),
    ("recall", .param "recall"), ("name", .param "name"), ("class_id", .param "class_id"),
    ("iou_threshold", .param "iou_threshold"), ("area_range", .param "area_range"),
    ("max_num_detections", .param "max_num_detections"), ("class_weight", .param "class_weight"),
    ("labels_to_stack", .param "labels_to_stack"), ("predictions_to_stack", .param "predictions_to_stack"),
    ("num_detections_key", .param "num_detections_key"), ("allow_missing_key", .param "allow_missing_key")]
  checks := [("recall", rangeEach)]

/-- metrics/object_detection_confusion_matrix_plot.py 34–101 `ObjectDetectionConfusionMatrixPlot.__init__`. -/
def cObjectDetectionConfusionMatrixPlot : Ctor V where
  params := [("num_thresholds", some (.int 1000)), ("name", some (.str "confusion_matrix_plot")),
    ("iou_threshold", some .none), ("class_id", some .none), ("class_weight", some .none), ("area_range", some .none),
    ("max_num_detections", some .none), ("labels_to_stack", some .none), ("predictions_to_stack", some .none),
    ("num_detections_key", some .none), ("allow_missing_key", some (.bool false))]
  passes := [("num_thresholds", .param "num_thresholds"), ("name", .param "name"), ("class_id", .param "class_id"),
    ("iou_threshold", .param "iou_threshold"), ("area_range", .param "area_range"),
    ("max_num_detections", .param "max_num_detections"), ("class_weight", .param "class_weight"),
    ("labels_to_stack", .param "labels_to_stack"), ("predictions_to_stack", .param "predictions_to_stack"),
    ("num_detections_key", .param "num_detections_key"), ("allow_missing_key", .param "allow_missing_key")]

/-- metrics/object_detection_metrics.py 42–128 `COCOAveragePrecision.__init__`. -/
def cCOCOAveragePrecision : Ctor V where
  params := [("num_thresholds", some .none), ("iou_threshold", some .none), ("class_id", some .none),
    ("class_weight", some .none), ("area_range", some .none), ("max_num_detections", some .none), ("recalls", some .none),
    ("num_recalls", some .none), ("name", some .none), ("labels_to_stack", some .none),
    ("predictions_to_stack", some .none), ("num_detections_key", some .none), ("allow_missing_key", some (.bool false))]
  passes := [("num_thresholds", .param "num_thresholds"), ("iou_threshold", .param "iou_threshold"),
    ("class_id", .param "class_id"), ("class_weight", .param "class_weight"), ("area_range", .param "area_range"),
    ("max_num_detections", .param "max_num_detections"), ("recall_thresholds", .fn cocoRecalls), ("name", .param "name"),
    ("labels_to_stack", .param "labels_to_stack"), ("predictions_to_stack", .param "predictions_to_stack"),
    ("num_detections_key", .param "num_detections_key"), ("allow_missing_key", .param "allow_missing_key")]

/-- metrics/object_detection_metrics.py 238–318 `COCOMeanAveragePrecision.__init__`. -/
def cCOCOMeanAveragePrecision : Ctor V where
  params := [("num_thresholds", some .none), ("iou_thresholds", some .none), ("class_ids", some .none),
    ("class_weights", some .none), ("area_range", some .none), ("max_num_detections", some .none),
    ("recalls", some .none), ("num_recalls", some .none), ("name", some .none), ("labels_to_stack", some .none),
    ("predictions_to_stack", some .none), ("num_detections_key", some .none), ("allow_missing_key", some (.bool false))]
  passes := [("num_thresholds", .param "num_thresholds"), ("iou_thresholds", .param "iou_thresholds"),
    ("class_ids", .param "class_ids"), ("class_weights", .param "class_weights"), ("area_range", .param "area_range"),
    ("max_num_detections", .param "max_num_detections"), ("recalls", .param "recalls"),
    ("num_recalls", .param "num_recalls"), ("name", .param "name"), ("labels_to_stack", .param "labels_to_stack"),
    ("predictions_to_stack", .param "predictions_to_stack"), ("num_detections_key", .param "num_detections_key"),
    ("allow_missing_key", .param "allow_missing_key")]

/-- metrics/object_detection_metrics.py 434–502 `COCOAverageRecall.__init__`. -/
def cCOCOAverageRecall : Ctor V where
  params := [("iou_thresholds", some .none), ("class_id", some .none), ("class_weight", some .none),
    ("area_range", some .none), ("max_num_detections", some .none), ("name", some .none), ("labels_to_stack", some .none),
    ("predictions_to_stack", some .none), ("num_detections_key", some .none), ("allow_missing_key", some (.bool false))]
  passes := [("iou_thresholds", .param "iou_thresholds"), ("class_id", .param "class_id"),
    ("class_weight", .param "class_weight"), ("area_range", .param "area_range"),
    ("max_num_detections", .param "max_num_detections"), ("name", .param "name"),
    ("labels_to_stack", .param "labels_to_stack"), ("predictions_to_stack", .param "predictions_to_stack"),
    ("num_detections_key", .param "num_detections_key"), ("allow_missing_key", .param "allow_missing_key")]

/-- metrics/object_detection_metrics.py 610–678 `COCOMeanAverageRecall.__init__`. -/
def cCOCOMeanAverageRecall : Ctor V where
  params := [("iou_thresholds", some .none), ("class_ids", some .none), ("class_weights", some .none),
    ("area_range", some .none), ("max_num_detections", some .none), ("name", some .none), ("labels_to_stack", some .none),
    ("predictions_to_stack", some .none), ("num_detections_key", some .none), ("allow_missing_key", some (.bool false))]
  passes := [("iou_thresholds", .param "iou_thresholds"), ("class_ids", .param "class_ids"),
    ("class_weights", .param "class_weights"), ("area_range", .param "area_range"),
    ("max_num_detections", .param "max_num_detections"), ("name", .param "name"),
    ("labels_to_stack", .param "labels_to_stack"), ("predictions_to_stack", .param "predictions_to_stack"),
    ("num_detections_key", .param "num_detections_key"), ("allow_missing_key", .param "allow_missing_key")]

/-- metrics/prediction_difference_metrics.py 32–39 `SymmetricPredictionDifference.__init__`. -/
def cSymmetricPredictionDifference : Ctor V where
  params := [("name", some (.str "symmetric_prediction_difference"))]
  passes := [("name", .param "name")]

/-- metrics/query_statistics.py 36–58 `QueryStatistics.__init__`. -/
def cQueryStatistics : Ctor V where
  params := [("total_queries_name", some (.str "total_queries")),
    ("total_documents_name", some (.str "total_documents")), ("min_documents_name", some (.str "min_documents")),
    ("max_documents_name", some (.str "max_documents"))]
  passes := [("total_queries_name", .param "total_queries_name"),
    ("total_documents_name", .param "total_documents_name"), ("min_documents_name", .param "min_documents_name"),
    ("max_documents_name", .param "max_documents_name")]

/-- metrics/rouge.py 255–271 `Rouge.__init__`. -/
def cRouge : Ctor V where
  params := [("rouge_type", none), ("name", some .none), ("use_stemmer", some (.bool false)),
    ("split_summaries", some (.bool false)), ("tokenizer", some .none)]
  passes := [("rouge_type", .param "rouge_type"), ("name", .orElse "name" "rouge_type" id),
    ("use_stemmer", .param "use_stemmer"), ("split_summaries", .param "split_summaries"),
    ("tokenizer", .param "tokenizer")]

/-- metrics/sample_metrics.py 33–58 `FixedSizeSample.__init__`. -/
def cFixedSizeSample : Ctor V where
  params := [("sampled_key", none), ("size", none), ("name", some (.str "fixed_size_sample")),
    ("random_seed", some .none)]
  passes := [("sampled_key", .param "sampled_key"), ("size", .param "size"), ("name", .param "name"),
    ("random_seed", .param "random_seed")]

/-- metrics/score_distribution_plot.py 37–54 `ScoreDistributionPlot.__init__`. -/
def cScoreDistributionPlot : Ctor V where
  params := [("num_thresholds", some (.int 1000)), ("name", some (.str "score_distribution_plot"))]
  passes := [("num_thresholds", .param "num_thresholds"), ("name", .param "name")]

/-- metrics/semantic_segmentation_confusion_matrix_metrics.py 43–80 `SemanticSegmentationConfusionMatrix.__init__`. -/
def cSemanticSegmentationConfusionMatrix : Ctor V where
  params := [("class_ids", none), ("ground_truth_key", none), ("prediction_key", none),
    ("decode_ground_truth", some (.bool true)), ("decode_prediction", some (.bool false)),
    ("ignore_ground_truth_id", some .none), ("name", some .none)]
  passes := [("name", .param "name"), ("class_ids", .param "class_ids"),
    ("ground_truth_key", .param "ground_truth_key"), ("prediction_key", .param "prediction_key"),
    ("decode_ground_truth", .param "decode_ground_truth"), ("decode_prediction", .param "decode_prediction"),
    ("ignore_ground_truth_id", .param "ignore_ground_truth_id")]

/-- metrics/semantic_segmentation_confusion_matrix_metrics.py 264–301 `SemanticSegmentationConfusionMatrixMetricBase.__init__`. -/
def cSemanticSegmentationConfusionMatrixMetricBase : Ctor V where
  params := [("class_ids", none), ("ground_truth_key", none), ("prediction_key", none),
    ("decode_ground_truth", some (.bool true)), ("decode_prediction", some (.bool false)),
    ("ignore_ground_truth_id", some .none), ("name", some .none)]
  passes := [("name", .param "name"), ("class_ids", .param "class_ids"),
    ("ground_truth_key", .param "ground_truth_key"), ("prediction_key", .param "prediction_key"),
    ("decode_ground_truth", .param "decode_ground_truth"), ("decode_prediction", .param "decode_prediction"),
    ("ignore_ground_truth_id", .param "ignore_ground_truth_id")]

/-- metrics/set_match_confusion_matrix_metrics.py 46–98 `SetMatchPrecision.__init__`. -/
def cSetMatchPrecision : Ctor V where
  params := [("thresholds", some .none), ("top_k", some .none), ("name", some .none),
    ("prediction_class_key", some (.str "classes")), ("prediction_score_key", some (.str "scores")),
    ("class_key", some .none), ("weight_key", some .none)]
  extras := true
  passes := [("thresholds", .param "thresholds"), ("top_k", .param "top_k"), ("name", .param "name"),
    ("prediction_class_key", .param "prediction_class_key"), ("prediction_score_key", .param "prediction_score_key"),
    ("class_key", .param "class_key"), ("weight_key", .param "weight_key")]

/-- metrics/set_match_confusion_matrix_metrics.py 172–224 `SetMatchRecall.__init__`. -/
def cSetMatchRecall : Ctor V where
  params := [("thresholds", some .none), ("top_k", some .none), ("name", some .none),
    ("prediction_class_key", some (.str "classes")), ("prediction_score_key", some (.str "scores")),
    ("class_key", some .none), ("weight_key", some .none)]
  extras := true
  passes := [("thresholds", .param "thresholds"), ("top_k", .param "top_k"), ("name", .param "name"),
    ("prediction_class_key", .param "prediction_class_key"), ("prediction_score_key", .param "prediction_score_key"),
    ("class_key", .param "class_key"), ("weight_key", .param "weight_key")]

/-- metrics/squared_pearson_correlation.py 29–39 `SquaredPearsonCorrelation.__init__`. -/
def cSquaredPearsonCorrelation : Ctor V where
  params := [("name", some (.str "squared_pearson_correlation"))]
  passes := [("name", .param "name")]

/-- metrics/stats.py 136–155 `Mean.__init__`. -/
def cMean : Ctor V where
  params := [("feature_key_path", none), ("example_weights_key_path", some .none), ("name", some .none)]
  passes := [("feature_key_path", .param "feature_key_path"),
    ("example_weights_key_path", .param "example_weights_key_path"), ("name", .orElse "name" "feature_key_path" meanName)]

/-- metrics/tjur_discrimination.py 44–54 `CoefficientOfDiscrimination.__init__`. -/
def cCoefficientOfDiscrimination : Ctor V where
  params := [("name", some (.str "coefficient_of_discrimination"))]
  passes := [("name", .param "name")]

/-- metrics/tjur_discrimination.py 130–142 `RelativeCoefficientOfDiscrimination.__init__`. -/
def cRelativeCoefficientOfDiscrimination : Ctor V where
  params := [("name", some (.str "relative_coefficient_of_discrimination"))]
  passes := [("name", .param "name")]

/-- metrics/weighted_example_count.py 25–32 `WeightedExampleCount.__init__`. -/
def cWeightedExampleCount : Ctor V where
  params := [("name", some (.str "weighted_example_count"))]
  passes := [("name", .param "name")]

/-! ### the classes

The constructors a class runs, from its own to the last one before `Metric`; its `_default_name`; and what its `get_config` leaves out. -/

/-- The metrics of metrics/attributions.py 53–176. -/
def classes_attributions : List (Class V) := [
  { name := "MeanAttributions", ctors := [cMeanAttributions] },
  { name := "MeanAbsoluteAttributions", ctors := [cMeanAbsoluteAttributions] },
  { name := "TotalAttributions", ctors := [cTotalAttributions] },
  { name := "TotalAbsoluteAttributions", ctors := [cTotalAbsoluteAttributions] }]

/-- The metrics of metrics/bleu.py 450–450. -/
def classes_bleu : List (Class V) := [
  { name := "Bleu", ctors := [cBleu] }]

/-- The metrics of metrics/calibration.py 30–162. -/
def classes_calibration : List (Class V) := [
  { name := "MeanLabel", ctors := [cMeanLabel] },
  { name := "MeanPrediction", ctors := [cMeanPrediction] },
  { name := "Calibration", ctors := [cCalibration] }]

/-- The metrics of metrics/calibration_plot.py 33–33. -/
def classes_calibration_plot : List (Class V) := [
  { name := "CalibrationPlot", ctors := [cCalibrationPlot] }]

/-- The metrics of metrics/confusion_matrix_metrics.py 460–2928. -/
def classes_confusion_matrix_metrics : List (Class V) := [
  { name := "AUC", ctors := [cAUC, cConfusionMatrixMetricBase], dflt := some "auc", drops := droppable },
  { name := "AUCPrecisionRecall", ctors := [cAUCPrecisionRecall, cAUC, cConfusionMatrixMetricBase], dflt := some "auc_precision_recall", drops := droppable, removes := ["curve"] },
  { name := "SensitivityAtSpecificity", ctors := [cSensitivityAtSpecificity, cConfusionMatrixMetricBase], dflt := some "sensitivity_at_specificity", drops := droppable },
  { name := "SpecificityAtSensitivity", ctors := [cSpecificityAtSensitivity, cConfusionMatrixMetricBase], dflt := some "specificity_at_sensitivity", drops := droppable },
  { name := "PrecisionAtRecall", ctors := [cPrecisionAtRecall, cConfusionMatrixMetricBase], dflt := some "precision_at_recall", drops := droppable },
  { name := "RecallAtPrecision", ctors := [cRecallAtPrecision, cConfusionMatrixMetricBase], dflt := some "recall_at_precision", drops := droppable },
  { name := "RecallAtFalsePositiveRate", ctors := [cRecallAtFalsePositiveRate, cConfusionMatrixMetricBase], dflt := some "recall_at_false_positive_rate", drops := droppable },
  { name := "TruePositives", ctors := [cTruePositives, cConfusionMatrixMetric, cConfusionMatrixMetricBase], dflt := some "true_positives", drops := droppable },
  { name := "TP", ctors := [cTP, cTruePositives, cConfusionMatrixMetric, cConfusionMatrixMetricBase], dflt := some "tp", drops := droppable },
  { name := "TrueNegatives", ctors := [cTrueNegatives, cConfusionMatrixMetric, cConfusionMatrixMetricBase], dflt := some "true_negatives", drops := droppable },
  { name := "TN", ctors := [cTN, cTrueNegatives, cConfusionMatrixMetric, cConfusionMatrixMetricBase], dflt := some "tn", drops := droppable },
  { name := "FalsePositives", ctors := [cFalsePositives, cConfusionMatrixMetric, cConfusionMatrixMetricBase], dflt := some "false_positives", drops := droppable },
  { name := "FP", ctors := [cFP, cFalsePositives, cConfusionMatrixMetric, cConfusionMatrixMetricBase], dflt := some "fp", drops := droppable },
  { name := "FalseNegatives", ctors := [cFalseNegatives, cConfusionMatrixMetric, cConfusionMatrixMetricBase], dflt := some "false_negatives", drops := droppable },
  { name := "FN", ctors := [cFN, cFalseNegatives, cConfusionMatrixMetric, cConfusionMatrixMetricBase], dflt := some "fn", drops := droppable },
  { name := "BinaryAccuracy", ctors := [cBinaryAccuracy, cConfusionMatrixMetric, cConfusionMatrixMetricBase], dflt := some "binary_accuracy", drops := droppable },
  { name := "Precision", ctors := [cPrecision, cConfusionMatrixMetric, cConfusionMatrixMetricBase], dflt := some "precision", drops := droppable },
  { name := "PPV", ctors := [cPPV, cPrecision, cConfusionMatrixMetric, cConfusionMatrixMetricBase], dflt := some "ppv", drops := droppable },
  { name := "Recall", ctors := [cRecall, cConfusionMatrixMetric, cConfusionMatrixMetricBase], dflt := some "recall", drops := droppable },
  { name := "TPR", ctors := [cTPR, cRecall, cConfusionMatrixMetric, cConfusionMatrixMetricBase], dflt := some "tpr", drops := droppable },
  { name := "Specificity", ctors := [cSpecificity, cConfusionMatrixMetric, cConfusionMatrixMetricBase], dflt := some "specificity", drops := droppable },
  { name := "TNR", ctors := [cTNR, cSpecificity, cConfusionMatrixMetric, cConfusionMatrixMetricBase], dflt := some "tnr", drops := droppable },
  { name := "FallOut", ctors := [cFallOut, cConfusionMatrixMetric, cConfusionMatrixMetricBase], dflt := some "fall_out", drops := droppable },
  { name := "FPR", ctors := [cFPR, cFallOut, cConfusionMatrixMetric, cConfusionMatrixMetricBase], dflt := some "fpr", drops := droppable },
  { name := "MissRate", ctors := [cMissRate, cConfusionMatrixMetric, cConfusionMatrixMetricBase], dflt := some "miss_rate", drops := droppable },
  { name := "FNR", ctors := [cFNR, cMissRate, cConfusionMatrixMetric, cConfusionMatrixMetricBase], dflt := some "fnr", drops := droppable },
  { name := "NegativePredictiveValue", ctors := [cNegativePredictiveValue, cConfusionMatrixMetric, cConfusionMatrixMetricBase], dflt := some "negative_predictive_value", drops := droppable },
  { name := "NPV", ctors := [cNPV, cNegativePredictiveValue, cConfusionMatrixMetric, cConfusionMatrixMetricBase], dflt := some "npv", drops := droppable },
  { name := "FalseDiscoveryRate", ctors := [cFalseDiscoveryRate, cConfusionMatrixMetric, cConfusionMatrixMetricBase], dflt := some "false_discovery_rate", drops := droppable },
  { name := "FalseOmissionRate", ctors := [cFalseOmissionRate, cConfusionMatrixMetric, cConfusionMatrixMetricBase], dflt := some "false_omission_rate", drops := droppable },
  { name := "Prevalence", ctors := [cPrevalence, cConfusionMatrixMetric, cConfusionMatrixMetricBase], dflt := some "prevalence", drops := droppable },
  { name := "PrevalenceThreshold", ctors := [cPrevalenceThreshold, cConfusionMatrixMetric, cConfusionMatrixMetricBase], dflt := some "prevalence_threshold", drops := droppable },
  { name := "ThreatScore", ctors := [cThreatScore, cConfusionMatrixMetric, cConfusionMatrixMetricBase], dflt := some "threat_score", drops := droppable },
  { name := "BalancedAccuracy", ctors := [cBalancedAccuracy, cConfusionMatrixMetric, cConfusionMatrixMetricBase], dflt := some "balanced_accuracy", drops := droppable },
  { name := "F1Score", ctors := [cF1Score, cConfusionMatrixMetric, cConfusionMatrixMetricBase], dflt := some "f1_score", drops := droppable },
  { name := "MatthewsCorrelationCoefficient", ctors := [cMatthewsCorrelationCoefficient, cConfusionMatrixMetric, cConfusionMatrixMetricBase], dflt := some "matthews_correlation_coefficient", drops := droppable },
  { name := "FowlkesMallowsIndex", ctors := [cFowlkesMallowsIndex, cConfusionMatrixMetric, cConfusionMatrixMetricBase], dflt := some "fowlkes_mallows_index", drops := droppable },
  { name := "Informedness", ctors := [cInformedness, cConfusionMatrixMetric, cConfusionMatrixMetricBase], dflt := some "informedness", drops := droppable },
  { name := "Markedness", ctors := [cMarkedness, cConfusionMatrixMetric, cConfusionMatrixMetricBase], dflt := some "markedness", drops := droppable },
  { name := "PositiveLikelihoodRatio", ctors := [cPositiveLikelihoodRatio, cConfusionMatrixMetric, cConfusionMatrixMetricBase], dflt := some "positive_likelihood_ratio", drops := droppable },
  { name := "NegativeLikelihoodRatio", ctors := [cNegativeLikelihoodRatio, cConfusionMatrixMetric, cConfusionMatrixMetricBase], dflt := some "negative_likelihood_ratio", drops := droppable },
  { name := "DiagnosticOddsRatio", ctors := [cDiagnosticOddsRatio, cConfusionMatrixMetric, cConfusionMatrixMetricBase], dflt := some "diagnostic_odds_ratio", drops := droppable },
  { name := "PredictedPositiveRate", ctors := [cPredictedPositiveRate, cConfusionMatrixMetric, cConfusionMatrixMetricBase], dflt := some "predicted_positive_rate", drops := droppable },
  { name := "FalsePositiveFeatureSampler", ctors := [cFalsePositiveFeatureSampler, cConfusionMatrixFeatureSamplerBase], dflt := some "false_positive_feature_sampler" },
  { name := "FalseNegativeFeatureSampler", ctors := [cFalseNegativeFeatureSampler, cConfusionMatrixFeatureSamplerBase], dflt := some "false_negative_feature_sampler" },
  { name := "ConfusionMatrixAtThresholds", ctors := [cConfusionMatrixAtThresholds], dflt := some "confusion_matrix_at_thresholds" },
  { name := "MaxRecall", ctors := [cMaxRecall, cRecall, cConfusionMatrixMetric, cConfusionMatrixMetricBase], dflt := some "max_recall", drops := droppable },
  { name := "ThresholdAtRecall", ctors := [cThresholdAtRecall, cConfusionMatrixMetricBase], dflt := some "threshold_at_recall", drops := droppable }]

/-- The metrics of metrics/confusion_matrix_plot.py 30–30. -/
def classes_confusion_matrix_plot : List (Class V) := [
  { name := "ConfusionMatrixPlot", ctors := [cConfusionMatrixPlot] }]

/-- The metrics of metrics/cross_entropy_metrics.py 30–125. -/
def classes_cross_entropy_metrics : List (Class V) := [
  { name := "BinaryCrossEntropy", ctors := [cBinaryCrossEntropy] },
  { name := "CategoricalCrossEntropy", ctors := [cCategoricalCrossEntropy] }]

/-- The metrics of metrics/exact_match.py 29–29. -/
def classes_exact_match : List (Class V) := [
  { name := "ExactMatch", ctors := [cExactMatch] }]

/-- The metrics of metrics/example_count.py 28–28. -/
def classes_example_count : List (Class V) := [
  { name := "ExampleCount", ctors := [cExampleCount] }]

/-- The metrics of metrics/flip_metrics.py 331–565. -/
def classes_flip_metrics : List (Class V) := [
  { name := "SymmetricFlipRate", ctors := [cSymmetricFlipRate, cFlipRateBase] },
  { name := "NegToNegFlipRate", ctors := [cNegToNegFlipRate, cFlipRateBase] },
  { name := "NegToPosFlipRate", ctors := [cNegToPosFlipRate, cFlipRateBase] },
  { name := "PosToNegFlipRate", ctors := [cPosToNegFlipRate, cFlipRateBase] },
  { name := "PosToPosFlipRate", ctors := [cPosToPosFlipRate, cFlipRateBase] },
  { name := "BooleanFlipRates", ctors := [cBooleanFlipRates] }]

/-- The metrics of metrics/mean_regression_error.py 32–272. -/
def classes_mean_regression_error : List (Class V) := [
  { name := "MeanAbsoluteError", ctors := [cMeanAbsoluteError] },
  { name := "MeanAbsolutePercentageError", ctors := [cMeanAbsolutePercentageError] },
  { name := "MeanSquaredError", ctors := [cMeanSquaredError] },
  { name := "MeanSquaredLogarithmicError", ctors := [cMeanSquaredLogarithmicError] }]

/-- The metrics of metrics/min_label_position.py 28–28. -/
def classes_min_label_position : List (Class V) := [
  { name := "MinLabelPosition", ctors := [cMinLabelPosition] }]

/-- The metrics of metrics/model_cosine_similarity.py 57–57. -/
def classes_model_cosine_similarity : List (Class V) := [
  { name := "ModelCosineSimilarity", ctors := [cModelCosineSimilarity] }]

/-- The metrics of metrics/multi_class_confusion_matrix_metrics.py 40–40. -/
def classes_multi_class_confusion_matrix_metrics : List (Class V) := [
  { name := "MultiClassConfusionMatrixAtThresholds", ctors := [cMultiClassConfusionMatrixAtThresholds] }]

/-- The metrics of metrics/multi_class_confusion_matrix_plot.py 28–28. -/
def classes_multi_class_confusion_matrix_plot : List (Class V) := [
  { name := "MultiClassConfusionMatrixPlot", ctors := [cMultiClassConfusionMatrixPlot] }]

/-- The metrics of metrics/multi_label_confusion_matrix_plot.py 28–28. -/
def classes_multi_label_confusion_matrix_plot : List (Class V) := [
  { name := "MultiLabelConfusionMatrixPlot", ctors := [cMultiLabelConfusionMatrixPlot] }]

/-- The metrics of metrics/ndcg.py 28–28. -/
def classes_ndcg : List (Class V) := [
  { name := "NDCG", ctors := [cNDCG] }]

/-- The metrics of metrics/object_detection_confusion_matrix_metrics.py 37–657. -/
def classes_object_detection_confusion_matrix_metrics : List (Class V) := [
  { name := "ObjectDetectionPrecisionAtRecall", ctors := [cObjectDetectionPrecisionAtRecall, cPrecisionAtRecall, cConfusionMatrixMetricBase], dflt := some "object_detection_precision_at_recall", drops := droppable },
  { name := "ObjectDetectionRecall", ctors := [cObjectDetectionRecall, cRecall, cConfusionMatrixMetric, cConfusionMatrixMetricBase], dflt := some "object_detection_recall", drops := droppable },
  { name := "ObjectDetectionPrecision", ctors := [cObjectDetectionPrecision, cPrecision, cConfusionMatrixMetric, cConfusionMatrixMetricBase], dflt := some "object_detection_precision", drops := droppable },
  { name := "ObjectDetectionMaxRecall", ctors := [cObjectDetectionMaxRecall, cMaxRecall, cRecall, cConfusionMatrixMetric, cConfusionMatrixMetricBase], dflt := some "object_detection_max_recall", drops := droppable },
  { name := "ObjectDetectionThresholdAtRecall", ctors := [cObjectDetectionThresholdAtRecall, cThresholdAtRecall, cConfusionMatrixMetricBase], dflt := some "object_detection_threshold_at_recall", drops := droppable }]

/-- The metrics of metrics/object_detection_confusion_matrix_plot.py 31–31. -/
def classes_object_detection_confusion_matrix_plot : List (Class V) := [
  { name := "ObjectDetectionConfusionMatrixPlot", ctors := [cObjectDetectionConfusionMatrixPlot, cConfusionMatrixPlot] }]

/-- The metrics of metrics/object_detection_metrics.py 35–603. -/
def classes_object_detection_metrics : List (Class V) := [
  { name := "COCOAveragePrecision", ctors := [cCOCOAveragePrecision], dflt := some "average_precision" },
  { name := "COCOMeanAveragePrecision", ctors := [cCOCOMeanAveragePrecision], dflt := some "mean_average_precision" },
  { name := "COCOAverageRecall", ctors := [cCOCOAverageRecall], dflt := some "average_recall" },
  { name := "COCOMeanAverageRecall", ctors := [cCOCOMeanAverageRecall], dflt := some "mean_average_recall" }]

/-- The metrics of metrics/prediction_difference_metrics.py 29–29. -/
def classes_prediction_difference_metrics : List (Class V) := [
  { name := "SymmetricPredictionDifference", ctors := [cSymmetricPredictionDifference] }]

/-- The metrics of metrics/query_statistics.py 29–29. -/
def classes_query_statistics : List (Class V) := [
  { name := "QueryStatistics", ctors := [cQueryStatistics] }]

/-- The metrics of metrics/rouge.py 183–183. -/
def classes_rouge : List (Class V) := [
  { name := "Rouge", ctors := [cRouge] }]

/-- The metrics of metrics/sample_metrics.py 30–30. -/
def classes_sample_metrics : List (Class V) := [
  { name := "FixedSizeSample", ctors := [cFixedSizeSample] }]

/-- The metrics of metrics/score_distribution_plot.py 34–34. -/
def classes_score_distribution_plot : List (Class V) := [
  { name := "ScoreDistributionPlot", ctors := [cScoreDistributionPlot] }]

/-- The metrics of metrics/semantic_segmentation_confusion_matrix_metrics.py 40–414. -/
def classes_semantic_segmentation_confusion_matrix_metrics : List (Class V) := [
  { name := "SemanticSegmentationConfusionMatrix", ctors := [cSemanticSegmentationConfusionMatrix], dflt := some "_semantic_segmentation_confusion_matrix" },
  { name := "SemanticSegmentationTruePositive", ctors := [cSemanticSegmentationConfusionMatrixMetricBase], dflt := some "semantic_segmentation_true_positives" },
  { name := "SemanticSegmentationFalsePositive", ctors := [cSemanticSegmentationConfusionMatrixMetricBase], dflt := some "semantic_segmentation_false_positives" }]

/-- The metrics of metrics/set_match_confusion_matrix_metrics.py 29–155. -/
def classes_set_match_confusion_matrix_metrics : List (Class V) := [
  { name := "SetMatchPrecision", ctors := [cSetMatchPrecision, cPrecision, cConfusionMatrixMetric, cConfusionMatrixMetricBase], dflt := some "set_match_precision", drops := droppable },
  { name := "SetMatchRecall", ctors := [cSetMatchRecall, cRecall, cConfusionMatrixMetric, cConfusionMatrixMetricBase], dflt := some "set_match_recall", drops := droppable }]

/-- The metrics of metrics/squared_pearson_correlation.py 26–26. -/
def classes_squared_pearson_correlation : List (Class V) := [
  { name := "SquaredPearsonCorrelation", ctors := [cSquaredPearsonCorrelation] }]

/-- The metrics of metrics/stats.py 133–133. -/
def classes_stats : List (Class V) := [
  { name := "Mean", ctors := [cMean] }]

/-- The metrics of metrics/tjur_discrimination.py 32–120. -/
def classes_tjur_discrimination : List (Class V) := [
  { name := "CoefficientOfDiscrimination", ctors := [cCoefficientOfDiscrimination] },
  { name := "RelativeCoefficientOfDiscrimination", ctors := [cRelativeCoefficientOfDiscrimination] }]

/-- The metrics of metrics/weighted_example_count.py 22–22. -/
def classes_weighted_example_count : List (Class V) := [
  { name := "WeightedExampleCount", ctors := [cWeightedExampleCount, cExampleCount] }]

/-- All metrics of the metrics directory (abstract base classes and the wrappers of Keras metrics left out). -/
def classes : List (Class V) :=
  classes_attributions ++ classes_bleu ++ classes_calibration ++ classes_calibration_plot ++ classes_confusion_matrix_metrics ++ classes_confusion_matrix_plot ++ classes_cross_entropy_metrics ++ classes_exact_match ++ classes_example_count ++ classes_flip_metrics ++ classes_mean_regression_error ++ classes_min_label_position ++ classes_model_cosine_similarity ++ classes_multi_class_confusion_matrix_metrics ++ classes_multi_class_confusion_matrix_plot ++ classes_multi_label_confusion_matrix_plot ++ classes_ndcg ++ classes_object_detection_confusion_matrix_metrics ++ classes_object_detection_confusion_matrix_plot ++ classes_object_detection_metrics ++ classes_prediction_difference_metrics ++ classes_query_statistics ++ classes_rouge ++ classes_sample_metrics ++ classes_score_distribution_plot ++ classes_semantic_segmentation_confusion_matrix_metrics ++ classes_set_match_confusion_matrix_metrics ++ classes_squared_pearson_correlation ++ classes_stats ++ classes_tjur_discrimination ++ classes_weighted_example_count

end MetricCtors
end TFMA
