import Verif.Beam.PerKey
import Mathlib.Data.Real.Sqrt

/-!
# The legacy Poisson bootstrap (evaluators/legacy_poisson_bootstrap.py)

Line numbers without a file are of that file.  Numbers are real numbers or NaN (`none`); infinities are left out.  What is computed for
the slices of a sample is given.
-/

namespace TFMA
namespace LegacyBootstrap

open Beam

/-- A value of a metric without messages: a number, a list or array, anything else. (179–219) -/
inductive Datum where
  | num (x : Option ℝ)
  | arr (xs : List Datum)
  | text (s : String)

/-- A value of a metric: a proto message or not. (168–174) -/
inductive Val where
  | proto (s : String)
  | data (d : Datum)

/-- api/types.py 377–415 `ValueWithTDistribution`. -/
structure TDist where
  mean : Option ℝ
  std : Option ℝ
  dof : ℤ
  unsampled : Datum

/-- What `_calculate_t_distribution` returns. (179–219) -/
inductive Res where
  | dist (d : TDist)
  | arr (rs : List Res)

/-- A value in the output. (139–176) -/
inductive Out where
  | asIs (v : Val)
  | res (r : Res)

/-- `data[index]`. (202–204; indexing a text, which cannot be a number afterwards, is refused at once) -/
def index (i : ℕ) : Datum → Except Err Datum
  | .arr xs => match xs[i]? with
    | some x => .ok x
    | none => .error .indexError
  | .num _ => .error .typeError
  | .text _ => .error .typeError

/-- A comprehension whose body may raise. (202–204, 208) -/
def mapE {α β : Type} (f : α → Except Err β) : List α → Except Err (List β)
  | [] => .ok []
  | x :: xs => match f x with
    | .error e => .error e
    | .ok y => match mapE f xs with
      | .error e => .error e
      | .ok ys => .ok (y :: ys)

/-- `np.isnan(data)` and the number. (208; the truth value of an array is an error, also for the arrays with one value, which numpy
accepts) -/
def number : Datum → Except Err (Option ℝ)
  | .num x => .ok x
  | .arr _ => .error .valueError
  | .text _ => .error .typeError

/-- `np.mean`. (211) -/
noncomputable def mean (xs : List ℝ) : ℝ := xs.sum / xs.length

/-- `np.std(…, ddof=1)`: NaN for one number. (212) -/
noncomputable def std (xs : List ℝ) : Option ℝ :=
  if xs.length = 1 then none
  else some (Real.sqrt ((xs.map fun x => (x - mean xs) ^ 2).sum / (xs.length - 1)))

/-- 207–219: numbers. -/
noncomputable def summary (samples : List Datum) (unsampled : Datum) : Except Err Res := match mapE number samples with
  | .error e => .error e
  | .ok xs =>
    let xs := xs.filterMap id
    if xs.length ≠ 0 then .ok (.dist ⟨some (mean xs), std xs, xs.length - 1, unsampled⟩)
    else .ok (.dist ⟨none, none, -1, .num none⟩)

mutual
/-- 179–219 `_calculate_t_distribution`; the first argument is `sampling_data_list[0]`. -/
noncomputable def calculate : Datum → List Datum → Datum → Except Err Res
  | .arr xs, samples, unsampled => match calculateAll xs 0 samples unsampled with
    | .error e => .error e
    | .ok rs => .ok (.arr rs)
  | .num _, samples, unsampled => summary samples unsampled
  | .text _, samples, unsampled => summary samples unsampled
/-- 201–205: the loop over the indices. -/
noncomputable def calculateAll : List Datum → ℕ → List Datum → Datum → Except Err (List Res)
  | [], _, _, _ => .ok []
  | x :: xs, i, samples, unsampled => match mapE (index i) samples with
    | .error e => .error e
    | .ok col => match index i unsampled with
      | .error e => .error e
      | .ok u => match calculate x col u with
        | .error e => .error e
        | .ok r => match calculateAll xs (i + 1) samples unsampled with
          | .error e => .error e
          | .ok rs => .ok (r :: rs)
end

variable {S K : Type} [DecidableEq S] [DecidableEq K]

/-- 150–153: the inner loop. -/
def groupOne : Dict K Val → Dict K (List Val) → Dict K (List Val)
  | [], d => d
  | (k, v) :: rest, d => groupOne rest (Dict.set d k ((Dict.get? d k).getD [] ++ [v]))

/-- 148–153: the values of each metric. -/
def groupAll : List (Dict K Val) → Dict K (List Val) → Dict K (List Val)
  | [], d => d
  | m :: ms, d => groupAll ms (groupOne m d)

/-- A value that is no message. (a message among the samples of a metric that is no message has no `np.isnan`, 208) -/
def dataOf : Val → Except Err Datum
  | .data d => .ok d
  | .proto _ => .error .typeError

/-- 168–174: the value of one metric. -/
noncomputable def confidence (vs : List Val) (unsampled : Val) : Except Err Out := match unsampled with
  | .proto s => .ok (.asIs (.proto s))
  | .data u => match mapE dataOf vs with
    | .error e => .error e
    | .ok [] => .error .indexError
    | .ok (d :: ds) => match calculate d (d :: ds) u with
      | .error e => .error e
      | .ok r => .ok (.res r)

/-- 165–174: the loop over the metrics. -/
noncomputable def confidences (unsampled : Dict K Val) : Dict K (List Val) → Except Err (Dict K Out)
  | [] => .ok []
  | (k, vs) :: rest => match Dict.get? unsampled k with
    | none => .error .keyError
    | some u => match confidence vs u with
      | .error e => .error e
      | .ok o => match confidences unsampled rest with
        | .error e => .error e
        | .ok os => .ok ((k, o) :: os)

/-- 106–176 `_MergeBootstrap.process`: the output for a slice, `metrics` are those of the samples in the order of the runner. -/
noncomputable def merge (metrics : List (Dict K Val)) (k : S) (unsampledResults : Dict S (Dict K Val)) : Except Err (Dict K Out) :=
  match metrics with
  | [m] => .ok (m.map fun p => (p.1, .asIs p.2))
  | _ =>
    let grouped := groupAll metrics []
    let unsampled := (Dict.get? unsampledResults k).getD []
    if ¬ ((∀ x ∈ Dict.keys grouped, x ∈ Dict.keys unsampled) ∧ ∀ x ∈ Dict.keys unsampled, x ∈ Dict.keys grouped) then .error .valueError
    else confidences unsampled grouped

/-- 67–73: the number of samples; None and 0 are 1. -/
def numSamples (n : Option ℤ) : Except Err ℕ :=
  let n := if n.getD 0 = 0 then 1 else n.getD 0
  if n < 1 then .error .valueError else .ok n.toNat

/-- `beam.GroupByKey()`: each key once, with its values in some order. (98–99) -/
def Grouped {V : Type} (input : List (S × V)) (output : List (S × List V)) : Prop :=
  (output.map Prod.fst).Nodup ∧ (∀ k, k ∈ output.map Prod.fst ↔ k ∈ input.map Prod.fst) ∧
    ∀ k vs, (k, vs) ∈ output → vs.Perm (valuesOf k input)

/-- 101: the merge of all slices. -/
noncomputable def mergeAll (unsampled : Dict S (Dict K Val)) : List (S × List (Dict K Val)) → Except Err (List (S × Dict K Out))
  | [] => .ok []
  | (k, ms) :: rest => match merge ms k unsampled with
    | .error e => .error e
    | .ok o => match mergeAll unsampled rest with
      | .error e => .error e
      | .ok os => .ok ((k, o) :: os)

/-- 34–103 `ComputeWithConfidenceIntervals`: a possible output, from the metrics of the slices in all data and in each sample. -/
def Computes (n : Option ℤ) (unsampled : List (S × Dict K Val)) (sampled : ℕ → List (S × Dict K Val))
    (out : Except Err (List (S × Dict K Out))) : Prop := match numSamples n with
  | .error e => out = .error e
  | .ok 1 => out = .ok (unsampled.map fun p => (p.1, p.2.map fun q => (q.1, .asIs q.2)))
  | .ok n => ∃ groups, Grouped ((List.range n).flatMap sampled) groups ∧ out = mergeAll unsampled groups

end LegacyBootstrap
end TFMA
