import Verif.Py.Basic
import Verif.Py.Float
import Mathlib.Data.List.Dedup

/-!
# Model of metrics/preprocessors/set_match_preprocessors.py

The values have been looked up in the extracts. Iterating over a set is iterating over a duplicate free list.
-/

namespace TFMA
namespace SetMatch

variable {C : Type} [DecidableEq C]

/-- One yielded input; scores may be `float('-inf')`. (metrics/preprocessors/set_match_preprocessors.py 222–260) -/
structure Item where
  label : ℚ
  prediction : Fl
  weight : Option ℚ
deriving DecidableEq

/-- 224–232 `calculate_weights`. The example weight is an array with one value, which is false as a condition if it is 0. -/
def weight (exampleWeight : Option ℚ) (classWeights : Option (Dict C ℚ)) (c : C) : Option ℚ :=
  let hasExample := exampleWeight.any (fun w => decide (w ≠ 0))
  let hasClass := classWeights.any (fun d => !d.isEmpty)
  if !hasExample && !hasClass then none
  else
    let w := if hasExample then 1 * exampleWeight.getD 1 else 1
    some (if hasClass then
      match Dict.get? (classWeights.getD []) c with
      | some v => w * v
      | none => w
    else w)

/-- `dict(zip(keys, values))`. (metrics/preprocessors/set_match_preprocessors.py 218, 221) -/
def dictZip (keys : List C) (values : List ℚ) : Dict C ℚ := Dict.update [] (keys.zip values)

/-- 126–260 `process`. `classWeights` are the classes (the labels if there is no class key) and their weights; `topK` is not
negative. -/
def process (labels predClasses : List C) (scores : Option (List ℚ)) (topK : Option ℕ) (exampleWeight : Option ℚ)
    (classWeights : Option (List C × List ℚ)) : Except Err (List Item) :=
  -- 163–167
  if classWeights.any (fun p => decide (p.1.length ≠ p.2.length)) then .error .valueError
  -- 192–196
  else if scores.any (fun s => decide (predClasses.length ≠ s.length)) then .error .valueError
  else
    let predClasses := match topK with
      | some k => predClasses.take (min k predClasses.length)
      | none => predClasses
    let scores := match topK with
      | some k => scores.map fun s : List ℚ => s.take (min k s.length)
      | none => scores
    let cw := classWeights.map fun p => dictZip p.1 p.2
    match scores with
    -- 221: `zip` of None
    | none => .error .typeError
    | some scores =>
      let byClass := dictZip predClasses scores
      let labelSet := labels.dedup
      let predSet := predClasses.dedup
      .ok (((labelSet.filter fun c => decide (c ∈ predSet)).map fun c =>
          ⟨1, .fin ((Dict.get? byClass c).getD 0), weight exampleWeight cw c⟩) ++
        ((labelSet.filter fun c => !decide (c ∈ predSet)).map fun c => ⟨1, .ninf, weight exampleWeight cw c⟩) ++
        ((predSet.filter fun c => !decide (c ∈ labelSet)).map fun c =>
          ⟨0, .fin ((Dict.get? byClass c).getD 0), weight exampleWeight cw c⟩))

end SetMatch
end TFMA
