import Verif.Py.Tree
import Verif.Model.Keys

/-!
# Extracts with helpers for labels, predictions and the like

`utils/util.py` 603–655 (`_contains_keys`, `_set_by_keys`, `_get_keys`) and 1120–1359 (`StandardExtracts`), and
`metrics/metric_types.py` 935–973 (`StandardMetricInputs`).

A value is a nested dictionary (`Tree`) whose leaves are values that are no dictionaries; the leaf `none` is
python's None. Setting a value changes dictionaries in place; the model returns the changed extracts, so it speaks
about extracts whose dictionaries are reached by one path only.
-/

namespace TFMA
namespace StdExtracts

variable {V : Type}

/-- A value of the extracts; `.leaf none` is None. -/
abbrev Val (V : Type) := Tree (Option V)

/-- The extracts: a dictionary. -/
abbrev Ext (V : Type) := Forest (Option V)

/-- utils/util.py 614–639 `_set_by_keys`: the changed root. An error of the inner call is raised again as
RuntimeError (632–639). Dictionaries created on the way (630–631) are kept only if the call succeeds; a call that
creates one cannot fail. -/
def setByKeys : Val V → List String → Val V → Except Err (Val V)
  | _, [], _ => .error .valueError
  | .leaf _, _ :: _, _ => .error .valueError
  | .node f, [k], v => .ok (.node (f.set k v))
  | .node f, k :: k' :: ks, v =>
    match setByKeys (if f.has k then (f.find? k).getD (.leaf none) else .node .nil) (k' :: ks) v with
    | .error _ => .error .runtimeError
    | .ok t => .ok (.node (f.set k t))

/-- A name that is given and not empty. (utils/util.py 1355, 1357) -/
def truthy : Option String → List String
  | none => []
  | some s => if s = "" then [] else [s]

/-- utils/util.py 1338–1359 `_set_by_key`; `set_labels` (1214–1226) and `set_predictions` (1234–1246) call it with the
keys "labels" and "predictions". -/
def setByKey (e : Ext V) (key : String) (v : Val V) (model output : Option String) : Except Err (Val V) :=
  setByKeys (.node e) (key :: (truthy model ++ truthy output)) v

/-- utils/util.py 535–538: the values whose name starts with `key/`, without that prefix. -/
def prefixed (key : String) : Ext V → Ext V → Ext V
  | acc, .nil => acc
  | acc, .cons k t rest => match Keys.stripPrefix? key k with
    | some r => prefixed key (acc.set r t) rest
    | none => prefixed key acc rest

/-- utils/util.py 486–558 `get_by_keys(value, [key], optional=True)` on a dictionary; None is `.leaf none`, an empty
dictionary counts as missing (546). -/
def getOptional (f : Ext V) (key : String) : Val V :=
  match f.find? key with
  | some (.node .nil) => .leaf none
  | some t => t
  | none => match prefixed key .nil f with
    | .nil => .leaf none
    | g => .node g

/-- `value is not None`. (utils/util.py 1327) -/
def notNone : Val V → Bool
  | .leaf none => false
  | _ => true

/-- utils/util.py 1319–1329 `optionally_get_by_keys` with one key, `_contains_keys` 603–611 included. -/
def optionally (value : Val V) (key : String) : Val V :=
  match value with
  | .leaf _ => value
  | .node f => if notNone (getOptional f key) || f.has key then getOptional f key else value

/-- utils/util.py 1311–1336 `StandardExtracts.get_by_key`. -/
def getByKey (e : Ext V) (key : String) (model output : Option String) : Val V :=
  let value := (e.find? key).getD (.leaf none)
  let value := match model with
    | none => value
    | some m => optionally value m
  match output with
  | none => value
  | some o => optionally value o

/-- metrics/metric_types.py 961–973 `StandardMetricInputs.get_by_key`: a key that is missing is looked up without its
final "s". -/
def getMetricInput (e : Ext V) (key : String) (model output : Option String) : Val V :=
  let key := if !e.has key && key.toList.getLast? == some 's' then String.ofList key.toList.dropLast else key
  getByKey e key model output

mutual
/-- utils/util.py 650–655: the key paths below one item; `depth` is the depth of the dictionary the item is in. -/
def keysT (maxDepth depth : ℕ) (k : String) : Val V → List (List String)
  | .leaf _ => [[k]]
  | .node f => (if maxDepth ≠ 0 ∧ depth + 1 = maxDepth then [] else keysF maxDepth (depth + 1) f).map (k :: ·)
/-- utils/util.py 650: the items of a dictionary. -/
def keysF (maxDepth depth : ℕ) : Ext V → List (List String)
  | .nil => []
  | .cons k t rest => keysT maxDepth depth k t ++ keysF maxDepth depth rest
end

/-- utils/util.py 642–655 `_get_keys`; `maxDepth = 0` stands for None (646 treats both alike). -/
def getKeys (f : Ext V) (maxDepth depth : ℕ) : List (List String) :=
  if maxDepth ≠ 0 ∧ depth = maxDepth then [] else keysF maxDepth depth f

/-- utils/util.py 1188–1199: the pair of names a key path stands for. A path of another length than one is kept
as it is. -/
def namesOf (configNames : List String) : List String → List (Option String)
  | [k] => if k ∈ configNames then [some k, none] else [none, some k]
  | p => p.map some

/-- utils/util.py 1172–1202 `get_model_and_output_names`; `specs` are the names of the model specs. Each result is the
tuple of a model name and an output name. -/
def modelAndOutputNames (e : Ext V) (specs : List String) : List (List (Option String)) :=
  match e.find? "predictions" with
  | none => []
  | some (.leaf _) => [[none, none]]
  | some (.node f) =>
    let names := if specs = [] then [""] else specs
    (getKeys f 2 0).map (namesOf names)

end StdExtracts
end TFMA
