import Verif.Beam.PerKey
import Mathlib.Data.Real.Sqrt

/-!
# Model of the confidence interval computations

/repo/tensorflow_model_analysis/evaluators/confidence_intervals_util.py, jackknife.py, poisson_bootstrap.py and
utils/math_util.py.  Floats are real numbers (the standard error is a square root).  A metric value is a number or
anything else; structured metric values and arrays, whose operators work element by element, are left out.  Metric keys
are any type with equality; `errKey` is `MetricKey(constants.ERROR_METRIC_NAME)`.  The counters are left out.
-/

namespace TFMA
namespace Confidence

open Beam

/-- The message that is stored under the error key (confidence_intervals_util.py 168–171, 187–191). -/
inductive Note (K : Type) where
  | missingSamples (found expected : ℕ)
  | incorrectCounts (counts : Dict K ℕ) (expected : ℕ)

/-- A metric value: a number, the message of an error or any other object (string, plot, ...).
(confidence_intervals_util.py 120–150) -/
inductive MV (K : Type) where
  | num (x : ℝ)
  | note (n : Note K)
  | other (s : String)

/-- A metrics dictionary (confidence_intervals_util.py 28–30). -/
abbrev MetricsDict (K : Type) := Dict K (MV K)

/-- confidence_intervals_util.py 28–30 `SampleMetrics`. -/
structure SampleMetrics (K : Type) where
  metrics : MetricsDict K
  sampleId : ℤ

/-- confidence_intervals_util.py 74–80 `SampleAccumulator`. -/
structure SampleAcc (K : Type) where
  point : Option (MetricsDict K) := none
  numSamples : ℕ := 0
  samples : Dict K (List ℝ) := []

variable {K : Type} [DecidableEq K]

/-- `accumulator.metric_samples[k].extend(vs)` of a defaultdict(list). (confidence_intervals_util.py 144, 158) -/
def extendKey (d : Dict K (List ℝ)) (k : K) (vs : List ℝ) : Dict K (List ℝ) := Dict.set d k ((Dict.get? d k).getD [] ++ vs)

/-- 120–140: the loop over the metrics of a sample: values that are no numbers and metrics to be skipped are left out. -/
def addMetrics (skip : List K) : MetricsDict K → Dict K (List ℝ) → Dict K (List ℝ)
  | [], d => d
  | (k, .num x) :: rest, d => addMetrics skip rest (if k ∈ skip then d else extendKey d k [x])
  | (_, .note _) :: rest, d => addMetrics skip rest d
  | (_, .other _) :: rest, d => addMetrics skip rest d

/-- jackknife.py 27 and poisson_bootstrap.py 28 `_FULL_SAMPLE_ID`. -/
def fullSampleId : ℤ := -1

/-- 108–141 `add_input`. -/
def addSample (skip : List K) (acc : SampleAcc K) (s : SampleMetrics K) : SampleAcc K :=
  if s.sampleId = fullSampleId then { acc with point := some s.metrics }
  else { acc with numSamples := acc.numSamples + 1, samples := addMetrics skip s.metrics acc.samples }

/-- 153–154: the loop over the samples of the other accumulator. -/
def extendAll : Dict K (List ℝ) → Dict K (List ℝ) → Dict K (List ℝ)
  | [], d => d
  | (k, vs) :: rest, d => extendAll rest (extendKey d k vs)

/-- 149–154: the body of the loop of `merge_accumulators`. -/
def plusSample (a b : SampleAcc K) : SampleAcc K where
  point := match b.point with
    | some p => some p
    | none => a.point
  numSamples := a.numSamples + b.numSamples
  samples := extendAll b.samples a.samples

/-- 71–156 `SampleCombineFn`. -/
def sampleCombineFn (skip : List K) : CombineFn (SampleMetrics K) (SampleAcc K) where
  create := {}
  addInput acc s := .ok (addSample skip acc s)
  merge := mergeWith plusSample

/-- 177–186: the loop over the point estimates: samples whose number is not the expected one are removed. -/
def checkCounts (n : ℕ) : List K → Dict K (List ℝ) → Dict K ℕ → Dict K (List ℝ) × Dict K ℕ
  | [], d, counts => (d, counts)
  | k :: ks, d, counts =>
    match Dict.get? d k with
    | none => checkCounts n ks d counts
    | some vs => if vs.length ≠ n then checkCounts n ks (Dict.del d k) (Dict.set counts k vs.length)
      else checkCounts n ks d counts

/-- 158–192 `_validate_accumulator`: the point estimates with a possible error entry and the usable samples.  Without
point estimates the code raises a TypeError. -/
def validateAcc (errKey : K) (n : ℕ) (acc : SampleAcc K) : Except Err (MetricsDict K × Dict K (List ℝ)) :=
  match acc.point with
  | none => .error .typeError
  | some p =>
    let missing := acc.numSamples < n
    let p := if missing then Dict.set p errKey (.note (.missingSamples acc.numSamples n)) else p
    let samples := if missing then [] else acc.samples
    let r := checkCounts n (Dict.keys p) samples []
    .ok (if r.2 = [] then p else Dict.set p errKey (.note (.incorrectCounts r.2 n)), r.1)

/-- `total` of 52–57: the sum from the first value on; None if there is none. -/
def sumFrom : List ℝ → Option ℝ
  | [] => none
  | x :: xs => some (xs.foldl (· + ·) x)

/-- Division of python floats by an int. (python builtin, used in confidence_intervals_util.py 33–68) -/
noncomputable def divInt (x : ℝ) (n : ℤ) : Except Err ℝ := if n = 0 then .error .zeroDivisionError else .ok (x / n)

/-- confidence_intervals_util.py 33–68 `mean_and_std`; `None / 0` is a TypeError. -/
noncomputable def meanAndStd (values : List ℝ) (ddof : ℤ) : Except Err (ℝ × ℝ) :=
  match sumFrom values with
  | none => .error .typeError
  | some total => do
    let mean ← divInt total values.length
    match sumFrom (values.map fun v => (v - mean) ^ 2) with
    | none => .error .typeError
    | some r => do
      let var ← divInt r (values.length - ddof)
      return (mean, Real.sqrt var)

/-- api/types.py `ValueWithTDistribution`. (lines 377–415) -/
structure TDist (K : Type) where
  mean : ℝ
  std : ℝ
  dof : ℤ
  unsampled : MV K

/-- A value of the result. (confidence_intervals_util.py 194–215) -/
inductive Out (K : Type) where
  | value (v : MV K)
  | dist (d : TDist K)

/-- jackknife.py 105–136: the value with distribution of one metric.  `num_buckets ** 0.5`, the division by it
cannot fail for a positive number of buckets. -/
noncomputable def jackknifeValue (n : ℕ) (point : MV K) (samples : List ℝ) : Except Err (Out K) :=
  match point with
  | .num x => do
    let pseudo := samples.map fun s => x * n - s * (n - 1)
    let r ← meanAndStd pseudo 1
    match sumFrom samples with
    | none => .error .typeError
    | some total => do
      let mean ← divInt total n
      return .dist { mean := mean, std := r.2 / Real.sqrt n, dof := n - 1, unsampled := point }
  | _ => .error .typeError

/-- poisson_bootstrap.py 144–153. -/
noncomputable def bootstrapValue (n : ℕ) (point : MV K) (samples : List ℝ) : Except Err (Out K) := do
  let r ← meanAndStd samples 1
  return .dist { mean := r.1, std := r.2, dof := n - 1, unsampled := point }

/-- jackknife.py 99–136, poisson_bootstrap.py 137–153: the loop over the point estimates. -/
def extractLoop (f : MV K → List ℝ → Except Err (Out K)) (samples : Dict K (List ℝ)) :
    MetricsDict K → Except Err (Dict K (Out K))
  | [] => .ok []
  | (k, v) :: rest => do
    let o ← match Dict.get? samples k with
      | none => .ok (.value v)
      | some vs => f v vs
    let r ← extractLoop f samples rest
    return (k, o) :: r

/-- `extract_output` of both combiners: jackknife.py 94–137, poisson_bootstrap.py 130–154. -/
def extractWith (errKey : K) (n : ℕ) (f : MV K → List ℝ → Except Err (Out K)) (acc : SampleAcc K) :
    Except Err (Dict K (Out K)) := do
  let r ← validateAcc errKey n acc
  extractLoop f r.2 r.1

/-- jackknife.py 97–137 `extract_output`. -/
noncomputable def jackknifeExtract (errKey : K) (n : ℕ) (acc : SampleAcc K) : Except Err (Dict K (Out K)) :=
  extractWith errKey n (jackknifeValue n) acc

/-- poisson_bootstrap.py 134–154 `extract_output`. -/
noncomputable def bootstrapExtract (errKey : K) (n : ℕ) (acc : SampleAcc K) : Except Err (Dict K (Out K)) :=
  extractWith errKey n (bootstrapValue n) acc

/-- utils/math_util.py 21–33 `calculate_confidence_interval` for the quantile `t` of the distribution. -/
noncomputable def interval (t : ℝ) (d : TDist K) : ℝ × ℝ × ℝ := (d.mean, d.mean - d.std * t, d.mean + d.std * t)

end Confidence
end TFMA
