import Verif.Py.Basic
import Mathlib.Data.Nat.Notation

/-!
# Loading of models on a worker

api/types.py 469–517 `ModelLoader` and utils/model_util.py 768–798 `DoFnWithModels`, 1100–1124 `CombineFnWithModels`: the DoFns of a worker process load their
models when they are set up, through handles the process shares, and report how long it took at the end of a bundle.
-/

namespace TFMA
namespace Loading

variable {M : Type}

/-- api/types.py 469–488 `ModelLoader`: `handle` is the identity of `_shared_handle`, `model` what `construct_fn` returns (`none`
for None, which it returns for TF.js models, utils/model_util.py 759–761) and `seconds` how long it takes. The tags are not used to
load. A construct function that raises is not modelled. -/
structure Loader (M : Type) where
  handle : ℕ
  model : Option M
  seconds : ℕ

/-- utils/model_util.py 768–778 `DoFnWithModels` (and 1100–1109 `CombineFnWithModels`, which has the same fields); `loaded` and `seconds` are None before the setup. -/
structure DoFn (M : Type) where
  loaders : Dict String (Loader M)
  loaded : Option (Dict String (Option M)) := none
  seconds : Option ℕ := none

/-- A worker process: its DoFns, the models its shared handles have, and, to be observed, the loaders constructed from and the
updates of the distribution of load times. -/
structure Worker (M : Type) where
  fns : List (DoFn M)
  shared : Dict ℕ M := []
  constructed : List (Loader M) := []
  updates : List ℕ := []

/-- What loading gives: the model, the models of the shared handles, the loaders constructed from, and the load time if the
callback was called. -/
structure Loaded (M : Type) where
  model : Option M
  shared : Dict ℕ M
  constructed : List (Loader M)
  seconds : Option ℕ

/-- api/types.py 490–517 `load` with a callback. `apache_beam.utils.shared.Shared.acquire` is modelled as: the model of the handle if
the process has it, otherwise what the constructor returns, which the handle keeps unless it is None. (A handle whose model nobody
refers to any more could lose it; DoFns are taken to live as long as the process.) -/
def load (shared : Dict ℕ M) (seconds : Option ℕ) (l : Loader M) : Loaded M :=
  match shared.get? l.handle with
  | some m => ⟨some m, shared, [], seconds⟩
  | none =>
    match l.model with
    | none => ⟨none, shared, [l], some l.seconds⟩
    | some m => ⟨some m, shared.set l.handle m, [l], some l.seconds⟩

/-- utils/model_util.py 784–788, the loop over the loaders. -/
def setupLoop : Dict String (Loader M) → Dict String (Option M) → Dict ℕ M → List (Loader M) → Option ℕ →
    Dict String (Option M) × Dict ℕ M × List (Loader M) × Option ℕ
  | [], acc, shared, constructed, seconds => (acc, shared, constructed, seconds)
  | (name, l) :: rest, acc, shared, constructed, seconds =>
    let r := load shared seconds l
    setupLoop rest (acc.set name r.model) r.shared (constructed ++ r.constructed) r.seconds

/-- utils/model_util.py 783–788 `setup` of the DoFn `i`. -/
def setup (w : Worker M) (i : ℕ) : Worker M :=
  match w.fns[i]? with
  | none => w
  | some f =>
    let (loaded, shared, constructed, seconds) := setupLoop f.loaders [] w.shared w.constructed f.seconds
    { w with fns := w.fns.set i { f with loaded := some loaded, seconds := seconds }, shared := shared, constructed := constructed }

/-- utils/model_util.py 793–798 `finish_bundle` of the DoFn `i`. -/
def finishBundle (w : Worker M) (i : ℕ) : Worker M :=
  match w.fns[i]? with
  | none => w
  | some f =>
    match f.seconds with
    | none => w
    | some s => { w with fns := w.fns.set i { f with seconds := none }, updates := w.updates ++ [s] }

/-- utils/model_util.py 1115–1124 `CombineFnWithModels.setup` of the CombineFn `i`: nothing if it was set up before; otherwise the models
are loaded as by a DoFn (1117–1121), and the load time is reported and forgotten at once, as at the end of a bundle (1122–1124). -/
def combineSetup (w : Worker M) (i : ℕ) : Worker M :=
  match w.fns[i]? with
  | none => w
  | some f => if f.loaded.isSome then w else finishBundle (setup w i) i

/-- What a runner does with the DoFns and CombineFns of a process. -/
inductive Event where
  | setup (i : ℕ)
  | finishBundle (i : ℕ)
  | combineSetup (i : ℕ)

/-- One event. (utils/model_util.py 783–798, 1115–1124) -/
def step (w : Worker M) : Event → Worker M
  | .setup i => setup w i
  | .finishBundle i => finishBundle w i
  | .combineSetup i => combineSetup w i

/-- A run. (utils/model_util.py 783–798, 1115–1124) -/
def run (w : Worker M) (es : List Event) : Worker M := es.foldl step w

end Loading
end TFMA
