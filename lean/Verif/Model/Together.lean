import Verif.Model.Slicer
import Verif.Beam.PerKey

/-!
# All metrics of a slice in one combiner

evaluators/metrics_plots_and_validations_evaluator.py 248–443 and the part of 763–962 that runs it.
-/

namespace TFMA
namespace Together

open Beam Slicer

/-- What a computation wants as input: the shared default inputs (no preprocessor, or exactly one
StandardMetricInputsPreprocessor) or the outputs of its own preprocessors.  Preprocessors are pure functions from one
extract to a list of extracts here; their setup, bundle and teardown hooks are not modelled.
(metrics_plots_and_validations_evaluator.py 313–351) -/
inductive Prep (E : Type) where
  | shared
  | own (ps : List (E → Except Err (List E)))

/-- metric_types.py 520–580 `MetricComputation`: preprocessors and combiner.  `E` is the type of combiner inputs
(extracts or StandardMetricInputs). -/
structure Computation (E K V : Type) : Type 1 where
  prep : Prep E
  Acc : Type
  combiner : CombineFn E Acc
  extract : Acc → Except Err (Dict K V)

variable {E K V : Type}

/-- `_combiner_inputs` and `_default_combiner_inputs` of a preprocessed example.
(metrics_plots_and_validations_evaluator.py 353–396) -/
structure Prepared (E : Type) where
  inputs : List (Option (List E))
  default : Option (List E)

/-- `list(chain.from_iterable([list(preprocessor.process(e)) for e in es]))`
(metrics_plots_and_validations_evaluator.py 340–350). -/
def stepAll (p : E → Except Err (List E)) : List E → Except Err (List E)
  | [] => .ok []
  | e :: es => match p e with
    | .error x => .error x
    | .ok l => match stepAll p es with
      | .error x => .error x
      | .ok r => .ok (l ++ r)

/-- the loop over the preprocessors of a computation (metrics_plots_and_validations_evaluator.py 338–350). -/
def chain : List (E → Except Err (List E)) → List E → Except Err (List E)
  | [], es => .ok es
  | p :: ps, es => match stepAll p es with
    | .error x => .error x
    | .ok es' => chain ps es'

/-- the loop over the computations (metrics_plots_and_validations_evaluator.py 313–351). -/
def combinerInputs (e : E) : List (Computation E K V) → Except Err (List (Option (List E)))
  | [] => .ok []
  | c :: cs => match c.prep with
    | .shared => match combinerInputs e cs with
      | .error x => .error x
      | .ok r => .ok (none :: r)
    | .own ps => match chain ps [e] with
      | .error x => .error x
      | .ok l => match combinerInputs e cs with
        | .error x => .error x
        | .ok r => .ok (some l :: r)

/-- whether the computation reads the shared inputs (metrics_plots_and_validations_evaluator.py 314–334). -/
def Computation.isShared (c : Computation E K V) : Bool :=
  match c.prep with
  | .shared => true
  | .own _ => false

/-- metrics_plots_and_validations_evaluator.py 305–396 `_PreprocessorDoFn.process` without the slice keys.  `std` is the
merged standard preprocessor followed by `to_standard_metric_inputs`. -/
def prepare (std : E → Except Err (List E)) (cs : List (Computation E K V)) (e : E) : Except Err (Prepared E) :=
  match combinerInputs e cs with
  | .error x => .error x
  | .ok inputs =>
    if cs.any Computation.isShared then
      match std e with
      | .error x => .error x
      | .ok l => .ok ⟨inputs, some l⟩
    else .ok ⟨inputs, none⟩

/-- `get_combiner_input` (metrics_plots_and_validations_evaluator.py 416–420); none = IndexError or KeyError. -/
def getInput (p : Prepared E) (i : ℕ) : Option (List E) :=
  match p.inputs[i]? with
  | none => none
  | some none => p.default
  | some (some l) => some l

/-- The accumulator of the tuple combiner: one accumulator per computation.
(apache_beam SingleInputTupleCombineFn, metrics_plots_and_validations_evaluator.py 401–443) -/
def Accs : List (Computation E K V) → Type
  | [] => Unit
  | c :: cs => c.Acc × Accs cs

/-- `[c.create_accumulator() for c in self._combiners]` (apache_beam TupleCombineFn). -/
def createAccs : (cs : List (Computation E K V)) → Accs cs
  | [] => ()
  | c :: cs => (c.combiner.create, createAccs cs)

/-- metrics_plots_and_validations_evaluator.py 415–432 `_ComputationsCombineFn.add_input`, from computation `i` on:
whatever goes wrong is raised as RuntimeError.  (If reading the input of the first computation itself failed python
would raise UnboundLocalError while building the message; examples prepared by `prepare` never do that.) -/
def addAccs (p : Prepared E) : (i : ℕ) → (cs : List (Computation E K V)) → Accs cs → Except Err (Accs cs)
  | _, [], _ => .ok ()
  | i, c :: cs, (a, as) => match getInput p i with
    | none => .error .runtimeError
    | some l => match c.combiner.addAll a l with
      | .error _ => .error .runtimeError
      | .ok a' => match addAccs p (i + 1) cs as with
        | .error x => .error x
        | .ok as' => .ok (a', as')

/-- `[c.merge_accumulators(a) for c, a in zip(self._combiners, zip(*accumulators))]` (apache_beam TupleCombineFn).  Never
called without accumulators. -/
def mergeAccs : (cs : List (Computation E K V)) → List (Accs cs) → Except Err (Accs cs)
  | [], _ => .ok ()
  | c :: cs, l => match c.combiner.merge (l.map Prod.fst) with
    | .error x => .error x
    | .ok a => match mergeAccs cs (l.map Prod.snd) with
      | .error x => .error x
      | .ok as => .ok (a, as)

/-- metrics_plots_and_validations_evaluator.py 401–432 `_ComputationsCombineFn` for the computations from number `i` on.
`compact` is the identity for all combiners modelled here. -/
def tuple (i : ℕ) (cs : List (Computation E K V)) : CombineFn (Prepared E) (Accs cs) where
  create := createAccs cs
  addInput as p := addAccs p i cs as
  merge := mergeAccs cs

/-- the loop of `extract_output` (metrics_plots_and_validations_evaluator.py 439–441). -/
def extractLoop [DecidableEq K] : (cs : List (Computation E K V)) → Dict K V → Accs cs → Except Err (Dict K V)
  | [], result, _ => .ok result
  | c :: cs, result, (a, as) => match c.extract a with
    | .error x => .error x
    | .ok d => extractLoop cs (Dict.update result d) as

/-- metrics_plots_and_validations_evaluator.py 438–442 `extract_output`. -/
def extractOutput [DecidableEq K] (cs : List (Computation E K V)) (as : Accs cs) : Except Err (Dict K V) :=
  extractLoop cs [] as

/-- `extracts | beam.ParDo(_PreprocessorDoFn(computations))`, slice keys and accessor kept beside
(metrics_plots_and_validations_evaluator.py 842). -/
def prepareAll (std : E → Except Err (List E)) (cs : List (Computation E K V)) :
    List (List SliceKey × Accessor × E) → Except Err (List (List SliceKey × Accessor × Prepared E))
  | [] => .ok []
  | (ks, a, e) :: xs => match prepare std cs e with
    | .error x => .error x
    | .ok p => match prepareAll std cs xs with
      | .error x => .error x
      | .ok ps => .ok ((ks, a, p) :: ps)

end Together
end TFMA
