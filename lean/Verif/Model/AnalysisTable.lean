import Verif.Model.Filters

/-!
# The analysis table

evaluators/analysis_table_evaluator.py 26–115 and extractors/extractor.py 36–87: the extracts of every example, filtered.
-/

namespace TFMA
namespace Filters

variable {α : Type}

/-- `include` or `exclude`: None, some iterable of keys, or a dictionary of filters. (extractors/extractor.py 39–43) -/
inductive Asked where
  | nothing
  | keys (l : List String)
  | filter (f : Filter)

/-- The truth of what is asked. (extractors/extractor.py 70; evaluators/analysis_table_evaluator.py 112) -/
def Asked.truthy : Asked → Bool
  | .nothing => false
  | .keys l => !l.isEmpty
  | .filter f => !f.isEmpty

/-- extractors/extractor.py 73–76: keys become filters that match everything. -/
def Asked.toFilter : Asked → Filter
  | .nothing => .nil
  | .keys l => l.foldl (fun f k => f.set k (.node .nil)) .nil
  | .filter f => f

/-- extractors/extractor.py 78–85 `filter_extracts`. -/
def filterRow (inc exc : Filter) (row : Target α) : Except Err (Target α) :=
  if inc.isEmpty && exc.isEmpty then .ok row
  else if !inc.isEmpty then includeFilter inc row
  else excludeFilter exc row

/-- `beam.Map` over the extracts. (extractors/extractor.py 87) -/
def filterRows (inc exc : Filter) : List (Target α) → Except Err (List (Target α))
  | [] => .ok []
  | row :: rest =>
    match filterRow inc exc row with
    | .error e => .error e
    | .ok r =>
      match filterRows inc exc rest with
      | .error e => .error e
      | .ok rs => .ok (r :: rs)

/-- extractors/extractor.py 36–87 `Filter`. -/
def filterExtracts (inc exc : Asked) (rows : List (Target α)) : Except Err (List (Target α)) :=
  if inc.truthy && exc.truthy then .error .valueError
  else filterRows inc.toFilter exc.toFilter rows

/-- evaluators/analysis_table_evaluator.py 109–115; constants.py `INPUT_KEY`. -/
def evaluateExtracts (key : String) (inc exc : Asked) (rows : List (Target α)) : Except Err (Dict String (List (Target α))) :=
  let exc := match inc, exc with
    | .nothing, .nothing => .keys ["input"]
    | _, exc => exc
  if inc.truthy || exc.truthy then
    match filterExtracts inc exc rows with
    | .error e => .error e
    | .ok rows => .ok [(key, rows)]
  else .ok [(key, rows)]

end Filters
end TFMA
