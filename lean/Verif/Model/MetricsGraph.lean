import Verif.Py.Basic
import Mathlib.Data.Nat.Notation

/-!
# Metrics computed in a graph (eval_metrics_graph/eval_metrics_graph.py)

Line numbers without a file refer to eval_metrics_graph/eval_metrics_graph.py.  The session of TensorFlow is given by what it does to the
values of the metric variables: `V` are values of variables, `E` examples, `R` values of metrics.  A run that fails may leave any values
behind.
-/

namespace TFMA
namespace MetricsGraph

variable {V E R : Type}

/-! ### Exceptions -/

/-- Classes of exceptions: those named at 348–353 and 375–379 (`op true` is InvalidArgumentError or ResourceExhaustedError, `op false` any
other OpError) and all others. -/
inductive Cls where
  | value
  | type
  | runtime
  | op (retry : Bool)
  | other (name : String)
deriving DecidableEq

/-- An argument of an exception. (utils/util.py 769–772) -/
inductive Arg where
  | text (s : String)
  | other (name : String)
deriving DecidableEq

/-- An exception: its class and its arguments. (utils/util.py 769–772) -/
structure Exc where
  cls : Cls
  args : List Arg
deriving DecidableEq

/-- What the session and python's exceptions do. -/
structure Env (V E R : Type) where
  /-- The initial values of the metric variables. (253–254, 436–438) -/
  init : List V
  /-- An update with a list of examples: the values afterwards and the exception. (256–259, 346) -/
  update : List V → List E → List V × Option Exc
  /-- The values of the metrics. (447) -/
  values : List V → List R
  /-- Whether an exception of the class can be created with these arguments. (utils/util.py 769–772) -/
  accepts : Cls → List Arg → Bool
  /-- `traceback.format_exception_only(...)[-1].strip()`. (utils/util.py 778) -/
  format : Exc → String
  /-- `"raw_input = %s" % examples_list`. (354) -/
  rawInput : List E → String

/-- utils/util.py 750–783 `reraise_augmented`: the exception that is raised. -/
def reraise (env : Env V E R) (e : Exc) (message : String) : Exc :=
  let failed : Exc := ⟨.runtime, [.text (env.format e ++ " additional message: " ++ message)]⟩
  match e.args with
  | .text t :: rest =>
    let args := Arg.text (t ++ " additional message: " ++ message) :: rest
    if env.accepts e.cls args then ⟨e.cls, args⟩ else failed
  | _ => failed

/-- 348–353: the exceptions that get a message. -/
def augmented : Cls → Bool
  | .other _ => false
  | _ => true

/-- 375–379: the exceptions after which the examples are tried one by one. -/
def retried : Cls → Bool
  | .value => true
  | .op retry => retry
  | _ => false

/-! ### Updates -/

/-- 341–354 `_perform_metrics_update_list`, with the values of the variables afterwards; the callable has been made. -/
def performUpdate (env : Env V E R) (vars : List V) (examples : List E) : List V × Option Exc :=
  match env.update vars examples with
  | (vars', none) => (vars', none)
  | (vars', some e) => (vars', some (if augmented e.cls then reraise env e (env.rawInput examples) else e))

/-- 388–390: the loop over the examples. -/
def serially (env : Env V E R) : List V → List E → List V × Option Exc
  | vars, [] => (vars, none)
  | vars, e :: rest =>
    match performUpdate env vars [e] with
    | (vars', none) => serially env vars' rest
    | (vars', some err) => (vars', some err)

/-- 436–438 `_reset_metric_variables`: the variables afterwards. -/
def resetVars (env : Env V E R) (_vars : List V) : List V := env.init

/-- 362–391 `metrics_reset_update_get_list`: the variables afterwards and the result. -/
def resetUpdateGet (env : Env V E R) (before : List V) (examples : List E) : List V × Except Exc (List V) :=
  match performUpdate env (resetVars env before) examples with
  | (vars, none) => (vars, .ok vars)
  | (vars, some e) =>
    if retried e.cls then
      match serially env (resetVars env vars) examples with
      | (vars', none) => (vars', .ok vars')
      | (vars', some e') => (vars', .error e')
    else (vars, .error e)

/-- 402–429 `_create_feed_for_metric_variables` and `_set_metric_variables`: values are paired with the variables; a variable without a value
makes the run fail, values without a variable are dropped. -/
def setVars (env : Env V E R) (vars : List V) (values : List V) : List V × Option Exc :=
  if values.length < env.init.length then (vars, some ⟨.op true, []⟩) else (values.take env.init.length, none)

/-- 445–448 `_get_metric_values`. -/
def getValues (env : Env V E R) (names : List String) (vars : List V) : Dict String R :=
  Dict.update [] (names.zip (env.values vars))

/-! ### Calls: each one holds the lock from beginning to end -/

/-- The calls. (356–460) -/
inductive Op (V E : Type) where
  | resetUpdateGet (examples : List E)
  | getVars
  | setVars (values : List V)
  | reset
  | getValues
  | setAndGet (values : List V)

/-- What a call returns. -/
inductive Out (V R : Type) where
  | vars (vs : List V)
  | values (d : Dict String R)
  | done
  | failed (e : Exc)

/-- One call: the variables afterwards and what it returns. (356–460) -/
def step (env : Env V E R) (names : List String) (vars : List V) : Op V E → List V × Out V R
  | .resetUpdateGet es => match resetUpdateGet env vars es with
    | (vars', .ok r) => (vars', .vars r)
    | (vars', .error e) => (vars', .failed e)
  | .getVars => (vars, .vars vars)
  | .setVars vs => match setVars env vars vs with
    | (vars', none) => (vars', .done)
    | (vars', some e) => (vars', .failed e)
  | .reset => (resetVars env vars, .done)
  | .getValues => (vars, .values (getValues env names vars))
  | .setAndGet vs => match setVars env vars vs with
    | (vars', none) => (vars', .values (getValues env names vars'))
    | (vars', some e) => (vars', .failed e)

/-- The calls of all threads in the order in which they get the lock, with what each returns. -/
def run (env : Env V E R) (names : List String) : List V → List (Op V E) → List (Out V R)
  | _, [] => []
  | vars, op :: rest => (step env names vars op).2 :: run env names (step env names vars op).1 rest

/-! ### Registration of metrics -/

/-- The metrics of the graph: names, operations for values and updates, and the updates that are run. (86–116) -/
structure Registry (A : Type) where
  names : List String := []
  valueOps : List A := []
  updateOps : List A := []
  grouped : List A := []

/-- 217–225: the loop over the metrics that are added. -/
def registerLoop {A : Type} : Dict String (A × A) → Registry A → Registry A × Option Err
  | [], r => (r, none)
  | (name, valueOp, updateOp) :: rest, r =>
    if r.names.contains name then (r, some .valueError)
    else registerLoop rest { r with
      names := r.names ++ [name], valueOps := r.valueOps ++ [valueOp], updateOps := r.updateOps ++ [updateOp] }

/-- 204–259 `register_additional_metric_ops`: the registry afterwards and the exception. -/
def register {A : Type} (ops : Dict String (A × A)) (r : Registry A) : Registry A × Option Err :=
  match registerLoop ops r with
  | (r', none) => ({ r' with grouped := r'.updateOps }, none)
  | (r', some e) => (r', some e)

/-- 183–195: the loop over the callbacks; `added` are the metrics of the callbacks. -/
def callbacksLoop {A : Type} : List (Dict String (A × A)) → Dict String (A × A) → Except Err (Dict String (A × A))
  | [], ops => .ok ops
  | new :: rest, ops =>
    if new.any fun x => Dict.has ops x.1 then .error .valueError else callbacksLoop rest (Dict.update ops new)

/-- 150–196 `register_add_metric_callbacks`. -/
def registerCallbacks {A : Type} (added : List (Dict String (A × A))) (r : Registry A) : Registry A × Option Err :=
  match callbacksLoop added [] with
  | .error e => (r, some e)
  | .ok ops => register ops r

end MetricsGraph
end TFMA
