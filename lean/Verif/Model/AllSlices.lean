import Verif.Model.EvalResults

/-!
# Attributions of all slices and names of slices

view/view_types.py 343–400; the metrics of all slices and of one are in Model/EvalResults.
-/

namespace TFMA
namespace EvalResults

open MetricKeys Slicer

variable {V : Type}

/-- view/view_types.py 373–385: the loop of `get_attributions_for_all_slices`. -/
def allAttributionsLoop (metricName output sub : String) : List (ResultKey × Option (ByOutput V)) → List (ResultKey × V) →
    Except Err (List (ResultKey × V))
  | [], acc => .ok acc
  | (key, m) :: rest, acc => match subMap m output sub with
    | .error e => .error e
    | .ok names => match pickMetric names metricName with
      | .error e => .error e
      | .ok v => allAttributionsLoop metricName output sub rest (setSlice acc key v)

/-- view/view_types.py 343–386 `get_attributions_for_all_slices`. -/
def getAttributionsForAllSlices (l : List (ResultKey × Option (ByOutput V))) (metricName output : String) (classId k topK : Option ℤ) :
    Except Err (List (ResultKey × V)) :=
  match attributionsSubKey classId k topK with
  | .error e => .error e
  | .ok sub => allAttributionsLoop metricName output sub l []

/-- view/view_types.py 388–397 `get_slice_names`. -/
def getSliceNames (l : List (ResultKey × Option (ByOutput V))) : List ResultKey := l.map Prod.fst

end EvalResults
end TFMA
