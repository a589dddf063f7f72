import Verif.Beam.PerKey
import Verif.Py.DictLemmas

/-!
# Combining the outputs of several evaluators

evaluators/evaluator.py 64–140.
-/

namespace TFMA
namespace EvaluationDicts

open Beam

variable {K V : Type} [DecidableEq K]

/-- evaluator.py 70–78 `_merge`: raises ValueError if a key is in both. -/
def merge (acc out : Dict K V) : Except Err (Dict K V) :=
  if (Dict.keys acc).any (fun k => Dict.has out k) then .error .valueError else .ok (Dict.update acc out)

/-- evaluator.py 80–90 `add_input`: an output that is not a dictionary (`none`) raises TypeError. -/
def addInput (acc : Dict K V) : Option (Dict K V) → Except Err (Dict K V)
  | none => .error .typeError
  | some out => merge acc out

/-- evaluator.py 64–102 `_CombineEvaluationDictionariesFn`. -/
def combiner : CombineFn (Option (Dict K V)) (Dict K V) where
  create := []
  addInput := addInput
  merge := mergeLoop merge

/-- evaluator.py 105–140 `combine_dict_based_evaluations`, for one kind of output: the outputs of a single evaluator are passed
on as they are; those of several are combined per key of the collection. -/
def Combined {S : Type} [DecidableEq S] (outputs : List (List (S × Option (Dict K V))))
    (result : List (S × Option (Dict K V))) : Prop :=
  match outputs with
  | [single] => result = single
  | _ => ∃ r, CombinesPerKey combiner outputs.flatten r ∧ result = r.map fun p => (p.1, some p.2)

end EvaluationDicts
end TFMA
