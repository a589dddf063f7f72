import Verif.Py.Tree

/-!
# utils/util.py: include_filter, exclude_filter, merge_filters

Filters are nested dictionaries whose values are dictionaries again (`Tree Empty`: no leaves).  Targets are
nested dictionaries whose leaves are `some a` or None (`none`).
-/

namespace TFMA
namespace Filters

/-- A filter: nested dictionaries without values (utils/util.py 658–747). -/
abbrev Filter := Forest Empty
/-- What is filtered: nested dictionaries whose leaves may be None (utils/util.py 658–712). -/
abbrev Target (α : Type) := Forest (Option α)

variable {α : Type}

/-- `not subkeys` for a filter value. (utils/util.py 677–684, 704–711) -/
def subEmpty : Tree Empty → Bool
  | .node f => f.isEmpty

mutual
/-- util.py:658-685 `include_filter(include, target)`.  A non-dictionary target with a non-empty filter is
a TypeError (`key in target`; numpy leaves would answer by element membership instead). -/
def includeTree : Tree Empty → Tree (Option α) → Except Err (Tree (Option α))
  | .node inc, t =>
    if inc.isEmpty then .ok t
    else match t with
      | .leaf _ => .error .typeError
      | .node tf => match includeItems inc tf with
        | .error e => .error e
        | .ok r => .ok (.node r)
/-- util.py:677-684, the loop over `include.items()`. -/
def includeItems : Filter → Target α → Except Err (Target α)
  | .nil, _ => .ok .nil
  | .cons k sub rest, target =>
    match target.find? k with
    | none => includeItems rest target
    | some (.leaf none) => match includeItems rest target with
      | .error e => .error e
      | .ok r => .ok (.cons k (.leaf none) r)
    | some v =>
      match (if subEmpty sub then .ok v else includeTree sub v) with
      | .error e => .error e
      | .ok v' => match includeItems rest target with
        | .error e => .error e
        | .ok r => .ok (.cons k v' r)
end

/-- util.py:658-685 `include_filter`. -/
def includeFilter (inc : Filter) (target : Target α) : Except Err (Target α) :=
  match includeTree (.node inc) (.node target) with
  | .error e => .error e
  | .ok (.node r) => .ok r
  | .ok (.leaf _) => .error .typeError

mutual
/-- util.py:688-712 `exclude_filter(exclude, target)` on a value; `.items()` of a non-dictionary raises
AttributeError. -/
def excludeTree : Filter → Tree (Option α) → Except Err (Target α)
  | _, .leaf _ => .error .attributeError
  | exc, .node f => excludeItems exc f
/-- util.py:704-711, the loop over `target.items()`. -/
def excludeItems : Filter → Target α → Except Err (Target α)
  | _, .nil => .ok .nil
  | exc, .cons k v rest =>
    match exc.find? k with
    | some (.node sub) =>
      if sub.isEmpty then excludeItems exc rest
      else match excludeTree sub v with
        | .error e => .error e
        | .ok v' => match excludeItems exc rest with
          | .error e => .error e
          | .ok r => if v'.isEmpty then .ok r else .ok (.cons k (.node v') r)
    | none => match excludeItems exc rest with
      | .error e => .error e
      | .ok r => .ok (.cons k v r)
end

/-- util.py:688-712 `exclude_filter`. -/
def excludeFilter (exc : Filter) (target : Target α) : Except Err (Target α) := excludeItems exc target

/-- keys of the second filter that are not in the first (util.py:743-744). -/
def onlySecond (f1 : Filter) : Filter → Filter
  | .nil => .nil
  | .cons k t rest => if f1.has k then onlySecond f1 rest else .cons k t (onlySecond f1 rest)

mutual
/-- util.py:715-747 `merge_filters` (values are always dictionaries here, so the ValueError for other
types cannot occur). -/
def mergeTree : Tree Empty → Tree Empty → Tree Empty
  | .node f1, .node f2 =>
    if f1.isEmpty then .node f1
    else if f2.isEmpty then .node f2
    else .node ((mergeItems f1 f2).append (onlySecond f1 f2))
/-- util.py:738-742: the keys of the first filter (python iterates over the union as a set; the order of the
result is irrelevant for filters). -/
def mergeItems : Filter → Filter → Filter
  | .nil, _ => .nil
  | .cons k t rest, f2 =>
    match f2.find? k with
    | some t2 => .cons k (mergeTree t t2) (mergeItems rest f2)
    | none => .cons k t (mergeItems rest f2)
end

/-- util.py:715-747 `merge_filters`. -/
def mergeFilters (f1 f2 : Filter) : Filter :=
  match mergeTree (.node f1) (.node f2) with
  | .node r => r

end Filters
end TFMA
