import Verif.Py.Basic
import Mathlib.Data.List.Perm.Basic

/-!
# Beam combiners and the schedules a runner may choose

A Beam runner evaluates a `CombineFn` by splitting the elements of a group into bundles, calling
`create_accumulator` / `add_input` for the elements of a bundle, and `merge_accumulators` on
non-empty collections of accumulators in any tree shape.  It may also add further elements to an
accumulator that came out of a merge.  `Sched` is the inductive type of all such executions; the
theorems quantify over all of them.  Because the elements of a group arrive in no particular order,
the main lemmas also allow the inputs of the schedule to be any permutation of the data.
-/

namespace TFMA.Beam

/-- The three methods of `beam.CombineFn` that build accumulators; `extract_output` is modelled
separately for each combiner.  Exceptions are values.
(apache_beam CombineFn protocol as implemented by the combiners in metrics/*.py, e.g. metrics/stats.py 36–94) -/
structure CombineFn (ε α : Type) where
  create : α
  addInput : α → ε → Except Err α
  merge : List α → Except Err α

mutual
/-- One execution of a combiner by a runner. (the freedom a Beam runner has; not in /repo) -/
inductive Sched (ε : Type) where
  /-- a fresh accumulator, then `add_input` for each element of a bundle -/
  | bundle (xs : List ε)
  /-- `add_input` of more elements to an accumulator obtained earlier -/
  | extend (s : Sched ε) (xs : List ε)
  /-- one call of `merge_accumulators` -/
  | merge (ss : Scheds ε)
/-- A non-empty collection of executions. (not in /repo) -/
inductive Scheds (ε : Type) where
  | one (s : Sched ε)
  | cons (s : Sched ε) (ss : Scheds ε)
end

variable {ε α : Type}

mutual
/-- All the elements used by an execution, each as often as it occurs. (not in /repo) -/
def Sched.inputs : Sched ε → List ε
  | .bundle xs => xs
  | .extend s xs => s.inputs ++ xs
  | .merge ss => ss.inputs
/-- All the elements used by a collection of executions. (not in /repo) -/
def Scheds.inputs : Scheds ε → List ε
  | .one s => s.inputs
  | .cons s ss => s.inputs ++ ss.inputs
end

/-- `for x in xs: accumulator = add_input(accumulator, x)`. (default `add_inputs` of apache_beam.CombineFn) -/
def CombineFn.addAll (c : CombineFn ε α) : α → List ε → Except Err α
  | a, [] => .ok a
  | a, x :: xs => do c.addAll (← c.addInput a x) xs

mutual
/-- The accumulator produced by an execution. (not in /repo, see `Sched`) -/
def CombineFn.run (c : CombineFn ε α) : Sched ε → Except Err α
  | .bundle xs => c.addAll c.create xs
  | .extend s xs => do c.addAll (← c.run s) xs
  | .merge ss => do c.merge (← c.runs ss)
/-- The accumulators produced by a collection of executions. (not in /repo, see `Scheds`) -/
def CombineFn.runs (c : CombineFn ε α) : Scheds ε → Except Err (List α)
  | .one s => do return [← c.run s]
  | .cons s ss => do return (← c.run s) :: (← c.runs ss)
end

/-- `result = next(it); for x in it: result = plus(result, x)`, the shape of most
`merge_accumulators` methods. (e.g. metrics/stats.py 81–87) -/
def mergeWith (plus : α → α → α) : List α → Except Err α
  | [] => .error .stopIteration
  | a :: as => .ok (as.foldl plus a)

/-- `for t in ts: accumulator = step(accumulator, t)`. (python for loop whose body may raise) -/
def loop {T : Type} (step : α → T → Except Err α) : α → List T → Except Err α
  | a, [] => .ok a
  | a, t :: ts => do loop step (← step a t) ts

/-- `result = next(it); for x in it: result = plus(result, x)` where `plus` can raise.
(e.g. metrics/multi_class_confusion_matrix_metrics.py 329–341) -/
def mergeLoop (plus : α → α → Except Err α) : List α → Except Err α
  | [] => .error .stopIteration
  | a :: as => loop plus a as

end TFMA.Beam
