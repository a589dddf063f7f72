import Verif.Py.Tree
import Verif.Py.Float
import Verif.Model.MetricKeys
import Mathlib.Data.Rat.Floor

/-!
# Labels, predictions and example weights as the metrics see them

metrics/metric_util.py 250–258, 323–430, 431–971, 1001–1173.

Arrays hold a shape and their values in row major order.  Labels and weights are finite numbers (`ℚ`), predictions
floats (`Fl`).  dtypes are not modelled.  Sparse and ragged tensor values are outside the model.
-/

namespace TFMA
namespace Inputs

open MetricKeys

/-- `np.ndarray`. (numpy) -/
structure Arr (α : Type) where
  shape : List ℕ
  data : List α
  deriving DecidableEq, Repr

variable {α : Type}

/-- `arr.size`. (numpy) -/
def Arr.size (a : Arr α) : ℕ := a.data.length

/-- Every array numpy can hold: as many values as the shape says. (numpy) -/
def Arr.WF (a : Arr α) : Prop := a.data.length = a.shape.prod

/-- `arr.reshape(shape)`; raises ValueError if the number of values differs. (numpy) -/
def Arr.reshape (a : Arr α) (shape : List ℕ) : Except Err (Arr α) :=
  if a.size = shape.prod then .ok ⟨shape, a.data⟩ else .error .valueError

/-- `np.array([x])`. (numpy) -/
def one (x : α) : Arr α := ⟨[1], [x]⟩

/-- Rows of `m` values. (numpy) -/
def rows (m : ℕ) : ℕ → List α → List (List α)
  | 0, _ => []
  | n + 1, l => l.take m :: rows m n (l.drop m)

/-- `arr.reshape((-1, arr.shape[-1]))` (1001–1078: also for one dimension), as a list of rows. -/
def Arr.lastRows (a : Arr α) : List (List α) :=
  rows (a.shape.getLast?.getD 1) (a.shape.dropLast.prod) a.data

/-! ### one_hot, metric_util.py 1147–1173 -/

/-- `x.astype(int)`: truncation towards zero. (metrics/metric_util.py 1167) -/
def toInt (q : ℚ) : ℤ := if 0 ≤ q then ⌊q⌋ else ⌈q⌉

/-- Row of `np.eye(n)` at a python index (negative indices count from the end). (metrics/metric_util.py 1167) -/
def eyeRow (n : ℕ) (i : ℤ) : Except Err (List ℚ) :=
  let j := if i < 0 then i + n else i
  if j < 0 ∨ (n : ℤ) ≤ j then .error .indexError
  else .ok ((List.range n).map fun (c : ℕ) => if (c : ℤ) = j then 1 else 0)

/-- Loop over the values. (python loop) -/
def mapE {β γ : Type} (f : β → Except Err γ) : List β → Except Err (List γ)
  | [] => .ok []
  | x :: xs => do
    let y ← f x
    let ys ← mapE f xs
    return y :: ys

/-- metric_util.py 1160–1173: rows of an identity matrix with one more class, whose column is then deleted;
IndexError becomes ValueError (also for a target without dimensions). -/
def oneHot (tensor : Arr ℚ) (target : List ℕ) : Except Err (Arr ℚ) :=
  match target.getLast? with
  | none => .error .valueError
  | some n => match mapE (fun x => eyeRow (n + 1) (toInt x)) tensor.data with
    | .error _ => .error .valueError
    | .ok rs => Arr.reshape ⟨tensor.shape ++ [n], (rs.map List.dropLast).flatten⟩ target

/-! ### top k, metric_util.py 323–430 -/

/-- Order used by numpy when sorting: NaN is last. (numpy, used by metrics/metric_util.py 367, 373) -/
def sortLe : Fl → Fl → Bool
  | _, .nan => true
  | .nan, _ => false
  | a, b => Fl.le a b

/-- `np.argpartition(scores, -k)`: some permutation of the indices for which the value at position `-k` is where it
would be if sorted, with nothing larger before it and nothing smaller behind it. (metrics/metric_util.py 367, 373) -/
structure Partition (part : ℕ → List Fl → List ℕ) : Prop where
  perm : ∀ k l, (part k l).Perm (List.range l.length)
  before : ∀ k l, k ≤ l.length → ∀ i ∈ (part k l).take (l.length - k), ∀ j x y,
    (part k l)[l.length - k]? = some j → l[i]? = some x → l[j]? = some y → sortLe x y
  behind : ∀ k l, k ≤ l.length → ∀ j ∈ (part k l).drop (l.length - k), ∀ i x y,
    (part k l)[l.length - k]? = some i → l[i]? = some x → l[j]? = some y → sortLe x y

/-- metric_util.py 353–392 with sort=False: for each row the indices of the `k` (≥ 1) largest values.  One dimension
is one row. -/
def topKIndices (part : ℕ → List Fl → List ℕ) (k : ℕ) (scores : Arr Fl) : Except Err (List (List ℕ)) :=
  match scores.shape with
  | [] => .error .indexError
  | [n] => if n < k then .error .valueError else .ok [(part k scores.data).drop (n - k)]
  | [_, n] => if n < k then .error .valueError
    else .ok (scores.lastRows.map fun r => (part k r).drop (n - k))
  | s => if s.getLast?.getD 0 < k then .error .valueError else .error .notImplementedError

/-- `arr[i]` for valid indices. (metrics/metric_util.py 412–430) -/
def pick (l : List α) (is : List ℕ) : List α := is.filterMap fun i => l[i]?

/-- metric_util.py 412–430: the values at the given indices (one list per row). -/
def selectIndices (a : Arr α) (idx : List (List ℕ)) : Arr α :=
  match a.shape with
  | [_] => let v := pick a.data (idx.headD []); ⟨[v.length], v⟩
  | s => let v := (List.zipWith pick a.lastRows idx).flatten
    ⟨s.dropLast ++ [(idx.map List.length).headD 0], v⟩

/-- metric_util.py 674–684: the index of the k-th value of each row.  For one dimension a scalar is selected. -/
def selectKth (a : Arr α) (idx : List (List ℕ)) : Arr α :=
  match a.shape with
  | [_] => ⟨[], pick a.data ((idx.headD []).take 1)⟩
  | s => let v := (List.zipWith pick a.lastRows (idx.map (List.take 1))).flatten
    ⟨s.dropLast ++ [1], v⟩

/-- metric_util.py 689–692: predictions that are not among the top k become -inf. -/
def maskRow (r : List Fl) (idx : List ℕ) : List Fl :=
  (r.zipIdx).map fun (p, i) => if i ∈ idx then p else .ninf

/-- metrics/metric_util.py 689–692. -/
def maskTopK (p : Arr Fl) (idx : List (List ℕ)) : Arr Fl :=
  ⟨p.shape, (List.zipWith maskRow (match p.shape with | [_] => [p.data] | _ => p.lastRows) idx).flatten⟩

/-! ### class id, metric_util.py 1001–1144 -/

/-- metric_util.py 1108–1144 with sparse_labels=None (both shapes non-empty). -/
def isSparse (l : Arr ℚ) (p : Arr Fl) : Bool :=
  l.shape.length ≠ p.shape.length || l.shape.getLast? ≠ p.shape.getLast?

/-- metric_util.py 1033–1036. -/
def lookup (c : ℤ) (l : List α) : Except Err α :=
  if c < 0 then .error .valueError else match l[c.toNat]? with
    | some x => .ok x
    | none => .error .valueError

/-- Scalars become arrays of one value. (metrics/metric_util.py 1028–1046) -/
def atLeast1 (a : Arr α) : Arr α := if a.shape = [] then ⟨[1], a.data⟩ else a

/-- metric_util.py 1047–1049: sparse labels get a last dimension of one. -/
def sparseShape (sparse : Bool) (l : Arr ℚ) : Arr ℚ :=
  if sparse && l.shape.getLast? ≠ some 1 then ⟨[l.size, 1], l.data⟩ else l

/-- metric_util.py 1028–1078. -/
def selectClassId (c : ℤ) (l : Arr ℚ) (p : Arr Fl) : Except Err (Arr ℚ × Arr Fl) :=
  if l.size = 0 ∨ p.size = 0 then .ok (l, p) else
    let l := atLeast1 l
    let p := atLeast1 p
    let sparse := isSparse l p
    let l := sparseShape sparse l
    do
      let lv ← if sparse then .ok (l.lastRows.map fun r => if r.head? = some (c : ℚ) then 1 else 0)
        else mapE (lookup c) l.lastRows
      let pv ← mapE (lookup c) p.lastRows
      return (⟨l.shape.dropLast ++ [1], lv⟩, ⟨p.shape.dropLast ++ [1], pv⟩)

/-! ### Fractional labels, metric_util.py 128–132, 797–828 -/

/-- metric_util.py 51. -/
def epsilon : ℚ := 1 / 10000000

/-- metric_util.py 128–132. -/
def withinInterval (v left right : ℚ) : Bool := decide (left - epsilon ≤ v) && decide (v ≤ right + epsilon)

/-- `math.isclose(a, b)` with the default relative tolerance 1e-9. (metrics/metric_util.py 827) -/
def mathIsClose (a b : ℚ) : Bool := decide (|a - b| ≤ 1 / 1000000000 * max |a| |b|)

/-- A yielded tuple. (metrics/metric_util.py 742–783) -/
structure Item where
  label : Arr ℚ
  prediction : Arr Fl
  weight : Arr ℚ
  deriving DecidableEq, Repr

/-- metric_util.py 818–828.  `float(label)` and `math.isclose(w, 0.0)` raise TypeError unless there is one value
(an empty label is not passed on, 786). -/
def fractionalLabels (x : Item) : Except Err (List Item) :=
  match x.label.data, x.weight.data with
  | [l], [w] =>
    if !withinInterval l 0 1 then .error .valueError
    else .ok (([((0 : ℚ), w * (1 - l)), (1, w * l)].filter fun lw => !mathIsClose lw.2 0).map fun lw =>
      ⟨one lw.1, x.prediction, ⟨x.weight.shape, [lw.2]⟩⟩)
  | _, _ => .error .typeError

/-! ### Lookups -/

/-- Entries whose key starts with `key + "/"`, without that prefix (utils/util.py 538–541). -/
def prefixMatches {β : Type} (key : String) : Forest β → Forest β
  | .nil => .nil
  | .cons k t rest =>
    if (key ++ "/").toList.isPrefixOf k.toList then
      .cons (String.ofList (k.toList.drop (key.length + 1))) t (prefixMatches key rest)
    else prefixMatches key rest

/-- `t` is an empty dictionary. (utils/util.py 546) -/
def isEmptyNode {β : Type} : Tree β → Bool
  | .node .nil => true
  | _ => false

/-- utils/util.py 513–558 for one key (no default): None stands for not found. -/
def getByKey {β : Type} (f : Forest β) (key : String) : Option (Tree β) :=
  match f.find? key with
  | some t => if isEmptyNode t then none else some t
  | none => match prefixMatches key f with
    | .nil => none
    | g => some (.node g)

/-- utils/util.py 525–529, 554: a leaf or a missing key raises ValueError. -/
def requireKey {β : Type} (t : Tree β) (key : String) : Except Err (Tree β) :=
  match t with
  | .leaf _ => .error .valueError
  | .node f => match getByKey f key with
    | some t => .ok t
    | none => .error .valueError

/-- metric_util.py 583–592 `optionally_get_by_keys`. -/
def optionalKey {β : Type} (t : Tree β) (key : String) : Tree β :=
  match t with
  | .leaf _ => t
  | .node f => (getByKey f key).getD t

/-- Label, prediction and weight inputs; a leaf `none` is None. (metrics/metric_util.py 583–592) -/
structure Raw where
  label : Tree (Option (Arr ℚ))
  prediction : Tree (Option (Arr Fl))
  weight : Tree (Option (Arr ℚ))

/-- The parts of a ModelSpec that matter here.
(proto/config.proto `ModelSpec`, used in metrics/metric_util.py 595–625) -/
structure ModelSpec where
  name : String
  predictionKey : String
  labelKey : String
  deriving DecidableEq, Repr

/-- metric_util.py 595–605: keys of the first spec with the model's name (a single spec has the name ''). -/
def specKeys (specs : List ModelSpec) (model : String) : String × String :=
  match specs.find? fun s => (if specs.length > 1 then s.name else "") == model with
  | some s => (s.predictionKey, s.labelKey)
  | none => ("", "")

/-- None as a value. (metrics/metric_util.py 652–660) -/
def isNoneLeaf {β : Type} : Tree (Option β) → Bool
  | .leaf none => true
  | _ => false

/-- metric_util.py 614–625: the lookup of one name. -/
def byName (name : String) (r : Raw) : Except Err Raw :=
  if name = "" then .ok r else do
    let p ← if isNoneLeaf r.prediction then .ok r.prediction else requireKey r.prediction name
    return ⟨optionalKey r.label name, p, optionalKey r.weight name⟩

/-- metric_util.py 899–912: the common keys of estimator outputs. -/
def commonKeys : List String := ["scores", "outputs", "predictions", "logistic", "probabilities", "logits"]

/-- metric_util.py 899–928: the predictions under the prediction key or the first common key.  Label vocabularies are
outside the model (labels are numbers). -/
def preparePrediction (key : String) (t : Tree (Option (Arr Fl))) : Except Err (Option (Arr Fl)) :=
  match t with
  | .leaf a => .ok a
  | .node f =>
    let found := if key = "" then commonKeys.findSome? f.find? else f.find? key
    match found with
    | some (.leaf a) => .ok a
    | _ => .error .valueError

/-- Arguments of `to_label_prediction_example_weight`. (metrics/metric_util.py 431–452) -/
structure Args where
  specs : List ModelSpec := []
  model : String := ""
  output : String := ""
  subKey : Option SubKey := none
  aggregated : Bool := false
  classWeights : Dict ℤ ℚ := []
  exampleWeighted : Bool := false
  fractional : Bool := false
  flatten : Bool := true
  squeeze : Bool := true
  allowNone : Bool := false
  singleWeight : Bool := false

/-- Values found for a model and output. (metrics/metric_util.py 594–650) -/
structure Found where
  label : Option (Arr ℚ)
  prediction : Option (Arr Fl)
  weight : Arr ℚ
  deriving DecidableEq, Repr

/-- A leaf, or ValueError for a dictionary. (metrics/metric_util.py 594–650) -/
def requireLeaf {β : Type} : Tree β → Except Err β
  | .leaf a => .ok a
  | .node _ => .error .valueError

/-- metric_util.py 594–650: lookups; without example weights the weight is a scalar 1. -/
def find (a : Args) (r : Raw) : Except Err Found := do
  let (predictionKey, labelKey) := specKeys a.specs a.model
  let r : Raw := { r with label := if labelKey = "" then r.label else optionalKey r.label labelKey }
  let r ← byName a.model r
  let r ← byName a.output r
  let weight : Tree (Option (Arr ℚ)) :=
    if !a.exampleWeighted || isNoneLeaf r.weight then .leaf (some ⟨[], [1]⟩) else r.weight
  let label ← requireLeaf r.label
  let w ← requireLeaf weight
  let prediction ← preparePrediction predictionKey r.prediction
  return ⟨label, prediction, w.getD ⟨[], [1]⟩⟩

/-- metric_util.py 652–660. -/
def checkNone (a : Args) (f : Found) : Except Err Unit :=
  if a.allowNone then .ok () else
    if f.label.isNone || f.prediction.isNone then .error .valueError else .ok ()

/-- metric_util.py 662–671. -/
def singleWeight (a : Args) (w : Arr ℚ) : Except Err (Arr ℚ) :=
  if a.singleWeight && w.size > 1 then
    match w.data with
    | [] => .ok w
    | x :: xs => if xs.all (· = x) then .ok ⟨[], [x]⟩ else .error .valueError
  else .ok w

/-- metric_util.py 681–682, 694–695: sparse labels become one-hot vectors. -/
def denseLabel (l : Arr ℚ) (p : Arr Fl) : Except Err (Arr ℚ) :=
  if l.shape ≠ p.shape then oneHot l p.shape else .ok l

/-- metric_util.py 686–697: top k of a sub key without k. -/
def topK (part : ℕ → List Fl → List ℕ) (k : ℕ) (aggregated : Bool) (l : Arr ℚ) (p : Arr Fl) :
    Except Err (Arr ℚ × Arr Fl) := do
  let idx ← topKIndices part k p
  if aggregated then do
    let l ← denseLabel l p
    return (selectIndices l idx, selectIndices p idx)
  else return (l, maskTopK p idx)

/-- metric_util.py 686–697, no effect without top_k. -/
def optTopK (part : ℕ → List Fl → List ℕ) (k : Option ℤ) (aggregated : Bool) (l : Arr ℚ) (p : Arr Fl) :
    Except Err (Arr ℚ × Arr Fl) :=
  match k with
  | some k => topK part k.toNat aggregated l p
  | none => .ok (l, p)

/-- metric_util.py 698–701, no effect without class id. -/
def optClassId (c : Option ℤ) (lp : Arr ℚ × Arr Fl) : Except Err (Arr ℚ × Arr Fl) :=
  match c with
  | some c => selectClassId c lp.1 lp.2
  | none => .ok lp

/-- metric_util.py 673–701: sub keys (k and top_k are at least 1). -/
def applySubKey (part : ℕ → List Fl → List ℕ) (sk : SubKey) (aggregated : Bool) (l : Arr ℚ) (p : Arr Fl) :
    Except Err (Arr ℚ × Arr Fl) :=
  match sk.k with
  | some k => do
    let idx ← topKIndices part k.toNat p
    let l ← denseLabel l p
    return (selectKth l idx, selectKth p idx)
  | none => do
    let lp ← optTopK part sk.topK aggregated l p
    optClassId sk.classId lp

/-- metric_util.py 673: only if there are a sub key, a label and a prediction. -/
def optSubKey (part : ℕ → List Fl → List ℕ) (a : Args) (f : Found) : Except Err (Option (Arr ℚ) × Option (Arr Fl)) :=
  match a.subKey, f.label, f.prediction with
  | some sk, some l, some p => do
    let lp ← applySubKey part sk a.aggregated l p
    return (some lp.1, some lp.2)
  | _, _, _ => .ok (f.label, f.prediction)

/-- metric_util.py 703–712: arrays of at least one dimension, empty arrays for None. -/
def orEmpty (x : Option (Arr α)) : Arr α :=
  match x with
  | some a => atLeast1 a
  | none => ⟨[0], []⟩

/-- metric_util.py 714–724: one weight per value. -/
def flattenWeights (n : ℕ) (w : Arr ℚ) : Except Err (Arr ℚ) :=
  match w.data with
  | [x] => .ok ⟨[n], List.replicate n x⟩
  | d => if d.length ≠ n then .error .valueError else .ok w

/-- metric_util.py 726–740: weights times class weights, 0.0 for unlisted positions.  Weights of more than one
dimension (one weight per value of a batch) are outside the model: ValueError. -/
def applyClassWeights (cw : Dict ℤ ℚ) (flatten : Bool) (n : ℕ) (w : Arr ℚ) : Except Err (Arr ℚ) :=
  if cw = [] then .ok w
  else if !flatten then .error .valueError
  else match w.shape with
    | [_] => .ok ⟨[n], w.data.zipIdx.map fun (x, i) => match Dict.get? cw (i : ℤ) with
        | some c => x * c
        | none => 0⟩
    | _ => .error .valueError

/-- metric_util.py 831–837. -/
def squeeze (a : Arr α) : Arr α :=
  if a.shape = [] ∨ a.shape = [1] then a else
    let s := a.shape.filter (· ≠ 1)
    if s = [] then ⟨[1], a.data⟩ else ⟨s, a.data⟩

/-- `zip(label, prediction, weight)` as tuples of arrays of one value. (metrics/metric_util.py 761–783) -/
def zip3 : List ℚ → List Fl → List ℚ → List Item
  | l :: ls, p :: ps, w :: ws => ⟨one l, one p, one w⟩ :: zip3 ls ps ws
  | _, _, _ => []

/-- metric_util.py 742–783 `yield_results`. -/
def yieldResults (flatten doSqueeze : Bool) (l : Arr ℚ) (p : Arr Fl) (w : Arr ℚ) : Except Err (List Item) :=
  if !flatten || (l.size = 0 ∧ p.size = 0) || (l.size = 1 ∧ p.size = 1 ∧ w.size = 1) then
    if doSqueeze then .ok [⟨squeeze l, squeeze p, squeeze w⟩] else .ok [⟨l, p, w⟩]
  else if l.size = 0 then .ok (List.zipWith (fun x y => ⟨l, one x, one y⟩) p.data w.data)
  else if p.size = 0 then .ok (List.zipWith (fun x y => ⟨one x, p, one y⟩) l.data w.data)
  else if l.size = p.size ∧ l.size = w.size then .ok (zip3 l.data p.data w.data)
  else if l.shape.getLast? = some 1 ∧ p.size = w.size then do
    let l ← oneHot l p.shape
    return zip3 l.data p.data w.data
  else .error .valueError

/-- metric_util.py 785–790. -/
def yieldAll (a : Args) (l : Arr ℚ) (p : Arr Fl) (w : Arr ℚ) : Except Err (List Item) := do
  let items ← yieldResults a.flatten a.squeeze l p w
  if a.fractional && l.size ≠ 0 then do
    let ls ← mapE fractionalLabels items
    return ls.flatten
  else return items

/-- metric_util.py 703–790: everything after the sub key. -/
def emit (a : Args) (lp : Option (Arr ℚ) × Option (Arr Fl)) (w : Arr ℚ) : Except Err (List Item) := do
  let l := orEmpty lp.1
  let p := orEmpty lp.2
  let w := atLeast1 w
  let n := if p.size = 0 then l.size else p.size
  let w ← if a.flatten then flattenWeights n w else .ok w
  let w ← applyClassWeights a.classWeights a.flatten n w
  yieldAll a l p w

/-- metric_util.py 652–790: from the values found to the tuples. -/
def process (part : ℕ → List Fl → List ℕ) (a : Args) (f : Found) : Except Err (List Item) := do
  let _ ← checkNone a f
  let w ← singleWeight a f.weight
  let lp ← optSubKey part a f
  emit a lp w

/-- metric_util.py 431–794 `to_label_prediction_example_weight`, as the list of tuples; an exception after some tuples
were yielded is the exception. -/
def toLabelPredictionWeight (part : ℕ → List Fl → List ℕ) (a : Args) (r : Raw) : Except Err (List Item) := do
  let f ← find a r
  process part a f

end Inputs
end TFMA
