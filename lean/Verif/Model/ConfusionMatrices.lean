import Verif.Model.Histogram

/-!
# Binary confusion matrices

contrib/aggregates/binary_confusion_matrices.py and metrics/binary_confusion_matrices.py.  `Matrices` is held as a list of
rows (its five lists always have the same length when built by this code).
-/

namespace TFMA

/-- python `a < b` on floats. (python builtin) -/
def Fl.lt (a b : Fl) : Bool := Fl.le a b && !Fl.le b a

namespace Bcm

open Beam

/-! ### contrib/aggregates/binary_confusion_matrices.py -/

/-- contrib/aggregates/binary_confusion_matrices.py 21–25 `Matrix`. -/
structure Matrix where
  tp : ℚ
  tn : ℚ
  fp : ℚ
  fn : ℚ
  deriving DecidableEq, Repr

/-- Elementwise sum (90–95). -/
def Matrix.add (a b : Matrix) : Matrix := ⟨a.tp + b.tp, a.tn + b.tn, a.fp + b.fp, a.fn + b.fn⟩

/-- contrib/aggregates/binary_confusion_matrices.py 28–33 `_ThresholdEntry`. -/
structure Entry where
  matrix : Matrix
  tpEx : List String
  tnEx : List String
  fpEx : List String
  fnEx : List String
  deriving DecidableEq, Repr

/-- One label / prediction / weight of an example. (metrics/binary_confusion_matrices.py 589–672) -/
structure Row where
  label : Fl
  pred : Fl
  weight : ℚ
  deriving DecidableEq, Repr

/-- Arguments of one `add_input` call; the weights are already filled in (132–133). -/
structure Example where
  rows : List Row
  id : Option String
  deriving DecidableEq, Repr

/-- Constructor arguments (42–70). -/
structure Config where
  thresholds : List Fl
  idsCount : ℕ
  fractional : Bool

/-- 75–78 `_merge_example_ids`. -/
def mergeIds (c : ℕ) (l₁ l₂ : List String) : List String :=
  l₁.take c ++ l₂.take (c - (l₁.take c).length)

/-- 80–108 `_merge_entry`. -/
def mergeEntry (c : ℕ) (old : Option Entry) (e : Entry) : Entry :=
  match old with
  | none => e
  | some o =>
    { matrix := o.matrix.add e.matrix
      tpEx := mergeIds c o.tpEx e.tpEx
      tnEx := mergeIds c o.tnEx e.tnEx
      fpEx := mergeIds c o.fpEx e.fpEx
      fnEx := mergeIds c o.fnEx e.fnEx }

/-- 149–153: the label counts as positive. -/
def isPos (c : Config) (t label : Fl) : Bool := if c.fractional then decide (label = .fin 1) else Fl.lt t label

/-- State of the inner loop (136–143): the four cells and the four optional example ids. -/
structure Cells where
  m : Matrix
  tp : Option String
  tn : Option String
  fp : Option String
  fn : Option String

/-- Body of the inner loop (146–166). -/
def cellStep (c : Config) (t : Fl) (id : Option String) (s : Cells) (r : Row) : Cells :=
  if isPos c t r.label then
    if Fl.lt t r.pred then { s with m := { s.m with tp := s.m.tp + r.weight }, tp := id }
    else { s with m := { s.m with fn := s.m.fn + r.weight }, fn := id }
  else
    if Fl.lt t r.pred then { s with m := { s.m with fp := s.m.fp + r.weight }, fp := id }
    else { s with m := { s.m with tn := s.m.tn + r.weight }, tn := id }

/-- The entry computed for one example at one threshold (136–178). -/
def entryOf (c : Config) (x : Example) (t : Fl) : Entry :=
  let s := x.rows.foldl (cellStep c t x.id) ⟨⟨0, 0, 0, 0⟩, none, none, none, none⟩
  ⟨s.m, s.tp.toList, s.tn.toList, s.fp.toList, s.fn.toList⟩

/-- threshold ↦ entry (36). -/
abbrev Acc := Dict Fl Entry

/-- 110–180 `add_input`. -/
def addInput (c : Config) (acc : Acc) (x : Example) : Acc :=
  c.thresholds.foldl (fun acc t => Dict.set acc t (mergeEntry c.idsCount (Dict.get? acc t) (entryOf c x t))) acc

/-- Inner loop of `merge_accumulators` (244–252). -/
def mergeTwo (c : Config) (r a : Acc) : Acc :=
  c.thresholds.foldl (fun r t => match Dict.get? a t with
    | some e => Dict.set r t (mergeEntry c.idsCount (Dict.get? r t) e)
    | none => r) r

/-- `BinaryConfusionMatrices` as used by metrics/binary_confusion_matrices.py 589–672
`_BinaryConfusionMatrixCombiner`: an element is what `to_label_prediction_example_weight` yields with the example id. -/
def combiner (c : Config) : CombineFn (Except Err Example) Acc where
  create := []
  addInput a x := x.bind fun x => .ok (addInput c a x)
  merge := mergeWith (mergeTwo c)

/-- 256–266 `extract_output`. -/
def extract (c : Config) (a : Acc) : Acc :=
  c.thresholds.foldl (fun a t => if Dict.has a t then a else Dict.set a t ⟨⟨0, 0, 0, 0⟩, [], [], [], []⟩) a

/-! ### metrics/binary_confusion_matrices.py -/

/-- One row of `Matrices` (68–80): threshold and cells. -/
abbrev MRow := Fl × Matrix

/-- A row of `Examples` (53–65). -/
structure ERow where
  threshold : Fl
  tp : List String
  tn : List String
  fp : List String
  fn : List String
  deriving DecidableEq, Repr

/-- `d[k]`: KeyError when absent. (python builtin) -/
def item (a : Acc) (t : Fl) : Except Err Entry :=
  match Dict.get? a t with
  | some e => .ok e
  | none => .error .keyError

/-- 675–696 `_accumulator_to_matrices_and_examples`. -/
def toMatrices (a : Acc) : List Fl → Except Err (List (MRow × ERow))
  | [] => .ok []
  | t :: ts => do
    let e ← item a t
    let rest ← toMatrices a ts
    return ((t, e.matrix), ⟨t, e.tpEx, e.tnEx, e.fpEx, e.fnEx⟩) :: rest

/-- The operator applied to all four cells. (metrics/binary_confusion_matrices.py 89–139) -/
def Matrix.op (f : ℚ → ℚ → ℚ) (a b : Matrix) : Matrix := ⟨f a.tp b.tp, f a.tn b.tn, f a.fp b.fp, f a.fn b.fn⟩

/-- Default cells for an absent threshold (117–120, 129–132). -/
def Matrix.zero : Matrix := ⟨0, 0, 0, 0⟩

/-- metrics/binary_confusion_matrices.py 89–139 `_apply_binary_op_elementwise`, from the indices `i` (self) and `j` (other).
Line 124 compares `other.thresholds[self_idx]` with `self.thresholds[other_idx]`; both subscripts can be out of range.  The
final `else` asserts that both lists are exhausted. -/
def elementwiseFrom (f : ℚ → ℚ → ℚ) (a b : List MRow) (i j : ℕ) : Except Err (List MRow) :=
  match hi : a[i]?, hj : b[j]? with
  | some x, some y =>
    if x.1 = y.1 then do
      return (x.1, Matrix.op f x.2 y.2) :: (← elementwiseFrom f a b (i + 1) (j + 1))
    else if Fl.lt x.1 y.1 then do
      return (x.1, Matrix.op f x.2 Matrix.zero) :: (← elementwiseFrom f a b (i + 1) j)
    else match b[i]?, a[j]? with
      | some u, some v =>
        if Fl.lt u.1 v.1 then do
          return (y.1, Matrix.op f Matrix.zero y.2) :: (← elementwiseFrom f a b i (j + 1))
        else .error .assertionError
      | _, _ => .error .indexError
  | some x, none => do
    return (x.1, Matrix.op f x.2 Matrix.zero) :: (← elementwiseFrom f a b (i + 1) j)
  | none, some y => do
    return (y.1, Matrix.op f Matrix.zero y.2) :: (← elementwiseFrom f a b i (j + 1))
  | none, none => .ok []
termination_by (a.length - i) + (b.length - j)
decreasing_by
  all_goals
    first
      | (have := (List.getElem?_eq_some_iff.1 hi).1
         have := (List.getElem?_eq_some_iff.1 hj).1
         omega)
      | (have := (List.getElem?_eq_some_iff.1 hi).1; omega)
      | (have := (List.getElem?_eq_some_iff.1 hj).1; omega)

/-- `_apply_binary_op_elementwise`. (metrics/binary_confusion_matrices.py 89–139) -/
def elementwise (f : ℚ → ℚ → ℚ) (a b : List MRow) : Except Err (List MRow) := elementwiseFrom f a b 0 0

/-- metrics/binary_confusion_matrices.py 141–151 `_apply_binary_op_broadcast`. -/
def broadcast (f : ℚ → ℚ → ℚ) (a : List MRow) (v : ℚ) : List MRow :=
  a.map fun x => (x.1, ⟨f x.2.tp v, f x.2.tn v, f x.2.fp v, f x.2.fn v⟩)

/-! ### Matrices from a histogram -/

/-- 202 `_EPSILON`. -/
def eps : ℚ := 1 / 10000000

/-- Positive and negative weight of a bucket (507–512). -/
def pos (b : Histogram.Bucket) : ℚ := b.labels
/-- metrics/binary_confusion_matrices.py 491–535: weight of the negative examples of a bucket. -/
def neg (b : Histogram.Bucket) : ℚ := b.examples - b.labels

/-- Lines 513–514: `tp[end] = tp[end + 1] + end_pos`, i.e. sums over the bucket and all later ones. -/
def suffixSums (f : Histogram.Bucket → ℚ) : List Histogram.Bucket → List ℚ
  | [] => []
  | b :: bs => match suffixSums f bs with
    | [] => [f b]
    | s :: ss => (s + f b) :: s :: ss

/-- Lines 515–517: `tn[start + 1] = tn[start] + start_neg`, i.e. sums over the earlier buckets. -/
def prefixSums (f : Histogram.Bucket → ℚ) : ℚ → List Histogram.Bucket → List ℚ
  | _, [] => []
  | s, b :: bs => s :: prefixSums f (s + f b) bs

/-- The four lists being updated (500–503, 522–525). -/
structure Cols where
  tp : List ℚ
  fp : List ℚ
  tn : List ℚ
  fn : List ℚ
  deriving DecidableEq, Repr

/-- `l[i] = v`, IndexError when out of range. (metrics/binary_confusion_matrices.py 491–535) -/
def setAt (l : List ℚ) (i : ℕ) (v : ℚ) : Except Err (List ℚ) :=
  if i < l.length then .ok (l.set i v) else .error .indexError

/-- `l[0]`. (metrics/binary_confusion_matrices.py 491–535) -/
def first (l : List ℚ) : Except Err ℚ :=
  match l with
  | [] => .error .indexError
  | x :: _ => .ok x

/-- Lines 529–534: thresholds above the range; the statements run in order, so for `i = 0` the cells `tp[0]`, `fp[0]`
read in the last two lines are already zero. -/
def fixAbove : ℕ → List Fl → Cols → Except Err Cols
  | _, [], c => .ok c
  | i, t :: ts, c =>
    if Fl.le (.fin (1 + eps)) t then do
      let tp ← setAt c.tp i 0
      let fp ← setAt c.fp i 0
      let fn ← setAt c.fn i (← first tp)
      let tn ← setAt c.tn i (← first fp)
      fixAbove (i + 1) ts ⟨tp, fp, tn, fn⟩
    else fixAbove (i + 1) ts c

/-- metrics/binary_confusion_matrices.py 491–535 `_histogram_to_binary_confusion_matrices`; `thresholds[0]` raises
IndexError for an empty list. -/
def histogramToMatrices (ts : List Fl) (h : List Histogram.Bucket) : Except Err Cols :=
  match ts with
  | [] => .error .indexError
  | t0 :: _ =>
    let off := if (Fl.le (.fin 0) t0 || ts.length == 1) && decide (1 < h.length) then 1 else 0
    let cut := fun l : List ℚ => (l.drop off).take ts.length
    fixAbove 0 ts ⟨cut (suffixSums pos h), cut (suffixSums neg h), cut (prefixSums neg 0 h), cut (prefixSums pos 0 h)⟩

/-- Thresholds handed to rebin, 459–469. -/
def rebinThresholds (ts : List Fl) : List Fl :=
  let r := ts.map fun t => if t = .fin 0 then t else Fl.add t (.fin eps)
  let r := match ts with
    | t0 :: _ => if Fl.le (.fin 0) t0 then .fin (-eps) :: r else r
    | [] => r
  match ts.getLast? with
  | some tl => if Fl.lt tl (.fin 1) then r ++ [.fin (1 + eps)] else r
  | none => r

/-- metrics/binary_confusion_matrices.py 447–474, the histogram branch of `result`.  `rebin` is called with the default
arguments num_buckets = 10000, left = 0, right = 1. -/
def histogramResult (ts : List Fl) (h : List Histogram.Bucket) : Except Err Cols :=
  match ts with
  | [] => .error .indexError
  | t0 :: rest =>
    if rest = [] ∧ Fl.lt t0 (.fin 0) = true then histogramToMatrices ts h
    else histogramToMatrices ts (Histogram.rebin (rebinThresholds ts) 10000 0 1 h)

end Bcm
end TFMA
