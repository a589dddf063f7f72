import Verif.Model.Confidence
import Verif.Model.Evaluate

/-!
# Confidence intervals of a whole evaluation

`evaluators/jackknife.py` 138–291, `evaluators/poisson_bootstrap.py` 52–243 and the choice between them in
`evaluators/metrics_plots_and_validations_evaluator.py` 695–734 and 886–925. Derived, cross slice and difference
metrics are added to every sample by a transform over the whole collection of slices (Model/Evaluate
`addAllDerived`), before the samples are put together per slice.
-/

namespace TFMA
namespace Confidence

open Beam Evaluate MetricKeys Slicer

variable {K L D M ε α : Type}

/-- jackknife.py 138–144 and poisson_bootstrap.py 52–58 `_add_sample_id`, mapped over a collection. -/
def tag (id : ℤ) (l : List (L × MetricsDict M)) : List (L × SampleMetrics M) := l.map fun p => (p.1, ⟨p.2, id⟩)

/-- jackknife.py 148–183 `_ComputeJackknifeSample` and poisson_bootstrap.py 62–108 `_ComputeBootstrapSample` after the
combination: `derive` is the transform that adds the derived metrics, `slices` are the metrics of the slices. -/
def sampleOf (derive : List (K × D) → Except Err (List (L × MetricsDict M))) (id : ℤ) (slices : List (K × D)) :
    Except Err (List (L × SampleMetrics M)) :=
  match derive slices with
  | .error e => .error e
  | .ok l => .ok (tag id l)

/-- jackknife.py 260–283, poisson_bootstrap.py 216–234: the loop over the samples. -/
def sampleLoop (derive : List (K × D) → Except Err (List (L × MetricsDict M))) (sample : ℕ → List (K × D)) :
    List ℕ → Except Err (List (L × SampleMetrics M))
  | [] => .ok []
  | i :: is =>
    match sampleOf derive i (sample i) with
    | .error e => .error e
    | .ok a =>
      match sampleLoop derive sample is with
      | .error e => .error e
      | .ok b => .ok (a ++ b)

/-- jackknife.py 246–291 and poisson_bootstrap.py 206–237: the collection that is combined per key, from the metrics of the
slices in each sample and in all data. -/
def records (derive : List (K × D) → Except Err (List (L × MetricsDict M))) (n : ℕ) (sample : ℕ → List (K × D))
    (full : List (K × D)) : Except Err (List (L × SampleMetrics M)) :=
  match sampleLoop derive sample (List.range n) with
  | .error e => .error e
  | .ok a =>
    match sampleOf derive fullSampleId full with
    | .error e => .error e
    | .ok b => .ok (a ++ b)

/-- poisson_bootstrap.py 201–204. -/
def checkBootstrap (n : ℤ) : Except Err Unit := if n < 1 then .error .valueError else .ok ()

/-- The metrics of a slice as the sample combiner sees them: the class of a key plays no role.
(confidence_intervals_util.py 108–141) -/
def plain (r : Results (MV MetricKey)) : MetricsDict MetricKey := r.map fun p => (p.1, p.2.2)

/-- metrics_plots_and_validations_evaluator.py 877–882: the transform that is passed to both methods. -/
def deriveAll (c : NumCodec) (ops : Ops (MV MetricKey))
    (derived : List (Computation (Results (MV MetricKey) → Except Err (Results (MV MetricKey)))))
    (cross : List (Computation (CrossFn (MV MetricKey)))) (specs : List CrossSpec) (baseline : Option String)
    (slices : List (SliceKey × Results (MV MetricKey))) : Except Err (List (AnyKey × MetricsDict MetricKey)) :=
  match addAllDerived c ops derived cross specs baseline slices with
  | .error e => .error e
  | .ok out => .ok (out.map fun p => (p.1, plain p.2))

/-! ## Which method is used -/

/-- config.proto 555–559 `ConfidenceIntervalMethod`. -/
inductive Method where
  | unknown | bootstrap | jackknife
  deriving DecidableEq

/-- utils/config_util.py 149–156: the method after defaults have been filled in. -/
def withDefault (enabled : Bool) (m : Method) : Method := if enabled ∧ m = .unknown then .jackknife else m

/-- metrics_plots_and_validations_evaluator.py 701–734 `_get_confidence_interval_params`: the numbers of jackknife and of
bootstrap samples. -/
def ciParams (enabled : Bool) (m : Method) : ℕ × ℕ :=
  if enabled then
    match m with
    | .jackknife => (20, 0)
    | .bootstrap => (0, 20)
    | .unknown => (0, 0)
  else (0, 0)

/-- metrics_plots_and_validations_evaluator.py 891–925: the branch that is taken, with the number of samples. -/
def chosen (params : ℕ × ℕ) : Method × ℕ :=
  if params.2 ≠ 0 then (.bootstrap, params.2)
  else if params.1 ≠ 0 then (.jackknife, params.1)
  else (.unknown, 0)

end Confidence
end TFMA
