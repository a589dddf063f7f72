import Verif.Model.Combiners

/-!
# Combiners whose merge_accumulators starts with `result = next(iter(accumulators))`

Flip rates, symmetric prediction difference, model cosine similarity, mean regression errors and cross entropies
share one shape of `merge_accumulators`:

    result = next(iter(accumulators))
    for accumulator in accumulators:
        result.merge(accumulator)

If `accumulators` is a re-iterable collection (a list or tuple, as handed over by Beam's tuple combiner) the loop
visits the first accumulator again; if it is an iterator the first accumulator has been consumed.
-/

namespace TFMA
namespace Combiners

open Beam

/-- The `merge_accumulators` quoted above.  `reiterable` says whether `accumulators` is a collection (its iteration
starts afresh) or a single pass iterator.  In the first case the first loop step merges the object into itself,
field by field, which doubles it. (flip_metrics.py 132–141 and the other files cited in this module) -/
def selfMerge {α : Type} (reiterable : Bool) (plus : α → α → α) : List α → Except Err α
  | [] => .error .stopIteration
  | a :: as => .ok ((if reiterable then a :: as else as).foldl plus a)

/-! ### flip_metrics.py -/

/-- flip_metrics.py 42–50 `_BooleanFlipCountsAccumulator`. -/
structure FlipAcc where
  examples : ℚ
  negToNeg : ℚ
  negToPos : ℚ
  posToNeg : ℚ
  posToPos : ℚ
  deriving DecidableEq, Repr

/-- flip_metrics.py 52–57 `merge`. -/
def FlipAcc.merge (a b : FlipAcc) : FlipAcc where
  examples := a.examples + b.examples
  negToNeg := a.negToNeg + b.negToNeg
  negToPos := a.negToPos + b.negToPos
  posToNeg := a.posToNeg + b.posToNeg
  posToPos := a.posToPos + b.posToPos

/-- Predictions of the baseline and of the candidate (size one arrays) and the baseline example weight, as
obtained by the two `next(...)` calls of flip_metrics.py 89–111. -/
structure PredPair where
  base : ℚ
  model : ℚ
  weight : ℚ
  deriving DecidableEq, Repr

/-- `int(b)`. (flip_metrics.py 121–127) -/
def boolInt (b : Bool) : ℚ := if b then 1 else 0

/-- flip_metrics.py 60–141 `_BooleanFlipCountsCombiner`. -/
def flipCombiner (reiterable : Bool) (threshold : ℚ) : CombineFn (Except Err PredPair) FlipAcc where
  create := ⟨0, 0, 0, 0, 0⟩
  addInput a x := x.bind fun x =>
    let b := decide (threshold < x.base)
    let m := decide (threshold < x.model)
    .ok (a.merge
      { examples := x.weight
        negToNeg := x.weight * boolInt (!b && !m)
        negToPos := x.weight * boolInt (!b && m)
        posToNeg := x.weight * boolInt (b && !m)
        posToPos := x.weight * boolInt (b && m) })
  merge := selfMerge reiterable FlipAcc.merge

/-- flip_metrics.py 358–361 `SymmetricFlipRate.result` (division by zero raises). -/
def symmetricFlipRate (a : FlipAcc) : Except Err ℚ :=
  if a.examples = 0 then .error .zeroDivisionError else .ok ((a.negToPos + a.posToNeg) / a.examples)

/-! ### prediction_difference_metrics.py -/

/-- prediction_difference_metrics.py 101–104. -/
structure DiffAcc where
  examples : ℚ
  total : Fl
  deriving DecidableEq, Repr

/-- prediction_difference_metrics.py 106–108 `merge`. -/
def DiffAcc.merge (a b : DiffAcc) : DiffAcc := ⟨a.examples + b.examples, Fl.add a.total b.total⟩

/-- Pointwise symmetric difference, prediction_difference_metrics.py 161–166 (numpy division). -/
def symDiff (base model : ℚ) : Fl :=
  let numerator := 2 * |base - model|
  let denominator := |base + model|
  if numerator < 1 / 10000000 ∧ denominator < 1 / 10000000 then .fin 0
  else Fl.div (.fin numerator) (.fin denominator)

/-- prediction_difference_metrics.py 111–176 `_SymmetricPredictionDifferenceCombiner`. -/
def diffCombiner (reiterable : Bool) : CombineFn (Except Err PredPair) DiffAcc where
  create := ⟨0, .fin 0⟩
  addInput a x := x.bind fun x =>
    .ok ⟨a.examples + x.weight, Fl.add a.total (Fl.mul (symDiff x.base x.model) (.fin x.weight))⟩
  merge := selfMerge reiterable DiffAcc.merge

/-- prediction_difference_metrics.py 178–184 `extract_output` (both are Python floats because of `safe_to_scalar`, so
division by a zero weight raises). -/
def diffExtract (a : DiffAcc) : Except Err Fl :=
  if a.examples = 0 then .error .zeroDivisionError else .ok (Fl.div a.total (.fin a.examples))

/-! ### model_cosine_similarity.py -/

/-- model_cosine_similarity.py 40–49: the accumulator with its `merge`. -/
structure CosAcc where
  examples : ℕ
  total : Fl
  deriving DecidableEq, Repr

/-- model_cosine_similarity.py 47–49 `merge`. -/
def CosAcc.merge (a b : CosAcc) : CosAcc := ⟨a.examples + b.examples, Fl.add a.total b.total⟩

/-- model_cosine_similarity.py 120–183 `_ModelCosineSimilarityCombiner`; an element is the cosine similarity of the
two predictions (lines 30–37, a float). -/
def cosCombiner (reiterable : Bool) : CombineFn (Except Err Fl) CosAcc where
  create := ⟨0, .fin 0⟩
  addInput a x := x.bind fun x => .ok (a.merge ⟨1, x⟩)
  merge := selfMerge reiterable CosAcc.merge

/-- model_cosine_similarity.py 51–54 `get_average`. -/
def cosExtract (a : CosAcc) : Fl := if a.examples = 0 then .nan else Fl.div a.total (.fin a.examples)

/-! ### mean_regression_error.py -/

/-- mean_regression_error.py 356–361. -/
structure RegAcc where
  weights : ℚ
  error : ℚ
  deriving DecidableEq, Repr

/-- mean_regression_error.py 363–365 `merge`. -/
def RegAcc.merge (a b : RegAcc) : RegAcc := ⟨a.weights + b.weights, a.error + b.error⟩

/-- mean_regression_error.py 459–462 absolute error. -/
def absError (label pred : ℚ) : Option ℚ := some |label - pred|

/-- mean_regression_error.py 468–471 squared error (`np.linalg.norm` of one entry is its absolute value). -/
def sqError (label pred : ℚ) : Option ℚ := some (|label - pred| ^ 2)

/-- mean_regression_error.py 477–485 absolute percentage error; none is NaN. -/
def pctError (label pred : ℚ) : Option ℚ := if label = 0 then none else some (100 * |(label - pred) / label|)

/-- mean_regression_error.py 368–442 `_MeanRegressionErrorCombiner` for the error function `err` (none is NaN; the
logarithmic error is an instance with an opaque function). -/
def regCombiner (reiterable : Bool) (err : ℚ → ℚ → Option ℚ) : CombineFn Flat RegAcc where
  create := ⟨0, 0⟩
  addInput a x := x.bind (loop (fun a t => match err t.label t.pred with
    | none => .ok a
    | some e => .ok ⟨a.weights + t.weight, a.error + e * t.weight⟩) a)
  merge := selfMerge reiterable RegAcc.merge

/-- mean_regression_error.py 444–453 `extract_output`. -/
def regExtract (a : RegAcc) : Fl := if a.weights ≠ 0 then .fin (a.error / a.weights) else .nan

/-! ### cross_entropy_metrics.py -/

/-- cross_entropy_metrics.py 221–226. -/
structure XentAcc where
  total : Fl
  weights : ℚ
  deriving DecidableEq, Repr

/-- cross_entropy_metrics.py 228–230 `merge`. -/
def XentAcc.merge (a b : XentAcc) : XentAcc := ⟨Fl.add a.total b.total, a.weights + b.weights⟩

/-- cross_entropy_metrics.py 233–318 `_CrossEntropyCombiner`; an example is its cross entropy (a float, computed by
the subclass) and its weight. -/
def xentCombiner (reiterable : Bool) : CombineFn (Except Err (List (Fl × ℚ))) XentAcc where
  create := ⟨.fin 0, 0⟩
  addInput a x := x.bind (loop (fun a t => .ok
    ⟨Fl.add a.total (Fl.mul t.1 (.fin t.2)), a.weights + t.2⟩) a)
  merge := selfMerge reiterable XentAcc.merge

/-- cross_entropy_metrics.py 320–326 `extract_output`. -/
def xentExtract (a : XentAcc) : Fl := Fl.div a.total (.fin a.weights)

end Combiners
end TFMA
