import Verif.Beam.Combine

/-!
# `beam.CombinePerKey`

The output of `CombinePerKey` has one element for each key of the input; its accumulator is the outcome of some
execution of the combiner over the values of the key, in some order.  The relation leaves open the order of the output
and the execution chosen for each key: the theorems hold for every choice of the runner.
-/

namespace TFMA.Beam

variable {K ε α : Type} [DecidableEq K]

/-- The values of a key in a collection of pairs.
(Beam grouping, used by evaluators/metrics_plots_and_validations_evaluator.py 763–962) -/
def valuesOf (k : K) (l : List (K × ε)) : List ε := (l.filter fun p => decide (p.1 = k)).map Prod.snd

/-- `input | beam.CombinePerKey(c)`, without the final `extract_output`.
(Beam transform, used by evaluators/metrics_plots_and_validations_evaluator.py 763–962) -/
def CombinesPerKey (c : CombineFn ε α) (input : List (K × ε)) (output : List (K × α)) : Prop :=
  (output.map Prod.fst).Nodup ∧ (∀ k, k ∈ output.map Prod.fst ↔ k ∈ input.map Prod.fst) ∧
    ∀ k a, (k, a) ∈ output → ∃ s : Sched ε, s.inputs.Perm (valuesOf k input) ∧ c.run s = .ok a

/-- evaluators/jackknife.py 61–72 `_AccumulatorCombineFn`: accumulators as elements. -/
def accumulatorCombineFn (c : CombineFn ε α) : CombineFn α α where
  create := c.create
  addInput acc x := c.merge [acc, x]
  merge := c.merge

/-- evaluators/poisson_bootstrap.py 34–51 `_BootstrapCombineFn`: an element is added as often as the random draw says.
The draw is part of the element here; the theorems hold for all draws. -/
def bootstrapCombineFn (c : CombineFn ε α) : CombineFn (ε × ℕ) α where
  create := c.create
  addInput acc x := c.addAll acc (List.replicate x.2 x.1)
  merge := c.merge

end TFMA.Beam
