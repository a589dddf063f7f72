import Verif.Model.Attributions
import Verif.Model.Inputs

/-!
# Attribution metrics

metrics/attributions.py 95–399 without the combiner itself (Model/Attributions): which scores of an example are added,
what is reported for a feature, and means.  Also how the values are written
(writers/metrics_plots_and_validations_writer.py 558–610).  Scores have no or one dimension.
-/

namespace TFMA
namespace AttributionMetrics

open Inputs Attributions MetricKeys

/-- The scores of a feature: a number or a vector. (attributions.py 344) -/
inductive Score where
  | scalar (q : ℚ)
  | vector (l : List ℚ)
  deriving DecidableEq, Repr

/-- The numbers of a score. (`v.size`, attributions.py 353–355) -/
def Score.values : Score → List ℚ
  | .scalar q => [q]
  | .vector l => l

/-- attributions.py 380–384 `_scores_by_class_id`; `len` of a number is a TypeError. -/
def byClassId (c : ℤ) : Score → Except Err Score
  | .scalar _ => .error .typeError
  | .vector l => if c < 0 ∨ c ≥ l.length then .error .valueError else .ok (.scalar (l.getD c.toNat 0))

/-- attributions.py 387–399 `_scores_by_top_k`: `part` is `np.argpartition`; `np.argsort` of the negated scores puts the
values in descending order (the order of equal values does not matter).  The shape of a number has no last element. -/
def byTopK (part : ℕ → List Fl → List ℕ) (k : ℤ) : Score → Except Err (List ℚ)
  | .scalar _ => .error .indexError
  | .vector l =>
    if (l.length : ℤ) < k then .error .valueError
    else .ok ((pick l ((part k.toNat (l.map Fl.fin)).drop (l.length - k.toNat))).mergeSort fun a b => decide (b ≤ a))

/-- attributions.py 345–352: the part of the scores for the sub key of the metric. -/
def select (part : ℕ → List Fl → List ℕ) (sk : Option SubKey) (v : Score) : Except Err Score :=
  match sk with
  | none => .ok v
  | some sk => match sk.classId, sk.k, sk.topK with
    | some c, _, _ => byClassId c v
    | none, some k, _ => match byTopK part k v with
      | .error e => .error e
      | .ok l => match l[(k - 1).toNat]? with
        | some q => .ok (.scalar q)
        | none => .error .indexError
    | none, none, some k => match byTopK part k v with
      | .error e => .error e
      | .ok l => .ok (.vector l)
    | none, none, none => .ok v

/-- What the combiner gets of an example: its attributions, if an extractor gave some, and the example weight found for
the metric (C79; an error if there are several). (attributions.py 315–342) -/
structure Raw where
  attributions : Option (Tree Score)
  weight : Except Err ℚ

/-- attributions.py 343–352: the selected scores of all features. A feature that is a dictionary is a TypeError (355). -/
def features (part : ℕ → List Fl → List ℕ) (sk : Option SubKey) : Forest Score → Except Err (List (String × List ℚ))
  | .nil => .ok []
  | .cons k (.leaf v) rest => match select part sk v with
    | .error e => .error e
    | .ok s => (features part sk rest).map ((k, s.values) :: ·)
  | .cons _ (.node _) _ => .error .typeError

/-- attributions.py 325–329: one level of the attributions if there is a name. -/
def level (t : Tree Score) (name : String) : Except Err (Tree Score) :=
  if name ≠ "" then requireKey t name else .ok t

/-- attributions.py 315–352: the element for the combiner.  (The code adds the scores of a feature before it selects those
of the next; which of several errors is raised first is not told apart.) -/
def element (part : ℕ → List Fl → List ℕ) (model output : String) (sk : Option SubKey) (r : Raw) : Except Err Elem :=
  match r.attributions with
  | none => .error .valueError
  | some t => match level t model with
    | .error e => .error e
    | .ok t1 => match level t1 output with
      | .error e => .error e
      | .ok t2 => match r.weight with
        | .error e => .error e
        | .ok w => match t2 with
          | .leaf _ => .error .attributeError
          | .node f => (features part sk f).map fun l => ⟨l, w⟩

/-- attributions.py 371–377 `extract_output`. -/
def extract (a : Acc) : Dict String Score :=
  a.map fun e => (e.1, match e.2 with | [q] => .scalar q | l => .vector l)

/-- What is reported as a mean: not a number, or a score. (attributions.py 137–148) -/
inductive Mean where
  | nan
  | score (s : Score)
  deriving DecidableEq, Repr

/-- attributions.py 147: division of a number or an array. -/
def Score.div (s : Score) (c : ℚ) : Score :=
  match s with
  | .scalar q => .scalar (q / c)
  | .vector l => .vector (l.map (· / c))

/-- attributions.py 132–148: the means from the totals and the number (or total weight) of the examples;
`np.isclose(count, 0.0)` is `|count| ≤ 1e-8`. -/
def means (totals : Dict String Score) (count : ℚ) : Dict String Mean :=
  totals.map fun e => (e.1, if |count| ≤ 1 / 100000000 then .nan else .score (e.2.div count))

/-! ### writing -/

/-- A value of an attribution before it is written. (writers/metrics_plots_and_validations_writer.py 586–608) -/
inductive Value where
  | bytes (b : List ℕ)
  | text (s : String)
  | array (shape : List ℕ) (data : List ℚ)
  | number (q : ℚ)
  | nan
  | other
  deriving DecidableEq, Repr

/-- The value in the message. (proto/metrics_for_slice.proto `MetricValue`; `unknown` for `unknown_type`) -/
inductive Written where
  | bytesValue (b : List ℕ)
  | textValue (s : String)
  | arrayValue (shape : List ℕ) (data : List ℚ)
  | doubleValue (q : Option ℚ)
  | unknown
  deriving DecidableEq, Repr

/-- writers/metrics_plots_and_validations_writer.py 586–608: arrays of one value become numbers; for a value that is no
number the code asks for `e.message`, which exceptions do not have. -/
def writeAttribution : Value → Except Err Written
  | .bytes b => .ok (.bytesValue b)
  | .text s => .ok (.textValue s)
  | .array shape data =>
    if data.length ≠ 1 then .ok (.arrayValue shape data) else .ok (.doubleValue (some (data.headD 0)))
  | .number q => .ok (.doubleValue (some q))
  | .nan => .ok (.doubleValue none)
  | .other => .error .attributeError

/-- writers/metrics_plots_and_validations_writer.py 314–338 `convert_metric_value_to_proto`, for values of the same
kinds. -/
def writeMetric : Value → Except Err Written
  | .bytes b => .ok (.bytesValue b)
  | .text s => .ok (.textValue s)
  | .array shape data => .ok (.arrayValue shape data)
  | .number q => .ok (.doubleValue (some q))
  | .nan => .ok (.doubleValue none)
  | .other => .ok .unknown

/-- The value of a mean. (attributions.py 145–147) -/
def Mean.value : Mean → Value
  | .nan => .nan
  | .score (.scalar q) => .number q
  | .score (.vector l) => .array [l.length] l

end AttributionMetrics
end TFMA
