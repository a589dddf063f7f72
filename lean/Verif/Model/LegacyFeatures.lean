import Verif.Model.Keys

/-!
# The legacy feature extractors

extractors/legacy_feature_extractor.py (exported as `FeatureExtractor` of the legacy kind) and extractors/legacy_meta_feature_extractor.py.
Names are lists of characters.  Python passes a deep copy (`_MaterializeFeatures`) or a copy of what is changed (`_ExtractMetaFeature`), so the
extracts that came in are not part of the result.
-/

namespace TFMA
namespace LegacyFeatures

/-- Names of features and keys of extracts. -/
abbrev Name := List Char

/-- A tensor value: a SparseTensorValue with its values, an array or a list with its elements along the first dimension, or anything
else (also an array without dimensions, for which `len` raises TypeError).  `A` is the type of an element, e.g. a row.
(legacy_feature_extractor.py 89–103) -/
inductive Val (A : Type) where
  | sparse (values : A)
  | rows (rs : List A)
  | other
  deriving DecidableEq

/-- An entry of features, predictions or labels: a value as it is, or a dictionary with the value under "node".  A dictionary without "node"
is `plain .other`. (legacy_feature_extractor.py 75–78) -/
inductive Item (A : Type) where
  | plain (v : Val A)
  | node (v : Val A)
  deriving DecidableEq

/-- `val` after legacy_feature_extractor.py 75–78. -/
def Item.val {A : Type} : Item A → Val A
  | .plain v => v
  | .node v => v

/-- The value of a MaterializedColumn: a value, or the empty list. (legacy_feature_extractor.py 89–97) -/
inductive ColV (A : Type) where
  | val (a : A)
  | empty
  deriving DecidableEq

/-- api/types.py `FeaturesPredictionsLabels` without the input reference. -/
structure Fpl (A : Type) where
  features : Dict Name (Item A)
  predictions : Dict Name (Item A)
  labels : Dict Name (Item A)
  deriving DecidableEq

/-- A value in the extracts.  `example e` is a serialized example; `e` are its features, each with its values, or none if no kind is set;
no `e` at all if it cannot be parsed (nothing is left of it then).  `falsy` and `other` stand for all other values, which are false or true
in a condition. (legacy_feature_extractor.py 106–206) -/
inductive Slot (A : Type) where
  | column (name : Name) (v : ColV A)
  | data (d : Dict Name (Item A))
  | fpl (f : Fpl A)
  | example (e : Option (Dict Name (Option A)))
  | falsy
  | other
  deriving DecidableEq

/-- Extracts. (api/types.py) -/
abbrev Extr (A : Type) := Dict Name (Slot A)

variable {A : Type}

/-- `not x` for a value of the extracts. (legacy_feature_extractor.py 179, 198) -/
def Slot.truthy : Slot A → Bool
  | .data [] => false
  | .falsy => false
  | _ => true

/-- `features`, constants.py 73. -/
def featuresKey : Name := "features".toList
/-- `predictions`, constants.py 79. -/
def predictionsKey : Name := "predictions".toList
/-- `labels`, constants.py 77. -/
def labelsKey : Name := "labels".toList
/-- `_fpl`, constants.py 66. -/
def fplKey : Name := "_fpl".toList
/-- `input`, constants.py 56. -/
def inputKey : Name := "input".toList
/-- `materialize`, constants.py 107. -/
def materializeColumns : Name := "materialize".toList

/-- The name of a column, legacy_feature_extractor.py 80–87. -/
def colName (pre name : Name) : Name :=
  if name = pre ∨ name = '_' :: '_' :: pre then pre
  else if pre ≠ featuresKey ∧ pre ≠ predictionsKey ∧ pre ≠ labelsKey then pre ++ '_' :: '_' :: name
  else Keys.compoundKey [pre, name]

/-- legacy_feature_extractor.py 52–103 `_AugmentExtracts`.  `excludes` are strings (as in the test; bytes, which the annotation asks for, are
never equal to a name). -/
def augment (pre : Name) (excludes : Option (List Name)) : Dict Name (Item A) → Extr A → Except Err (Extr A)
  | [], r => .ok r
  | (name, item) :: d, r =>
    if name ∈ excludes.getD [] then augment pre excludes d r
    else match item.val with
      | .sparse a => augment pre excludes d (Dict.set r (colName pre name) (.column (colName pre name) (.val a)))
      | .rows (a :: _) => augment pre excludes d (Dict.set r (colName pre name) (.column (colName pre name) (.val a)))
      | .rows [] => augment pre excludes d (Dict.set r (colName pre name) (.column (colName pre name) .empty))
      | .other => .error .typeError

/-- The loop over `additional_extracts`, legacy_feature_extractor.py 172–175: a value without `items` raises AttributeError. -/
def additional (excludes : Option (List Name)) : List Name → Extr A → Except Err (Extr A)
  | [], r => .ok r
  | key :: ks, r => match Dict.get? r key with
    | none => additional excludes ks r
    | some (.data d) => match augment key excludes d r with
      | .error e => .error e
      | .ok r' => additional excludes ks r'
    | some _ => .error .attributeError

/-- The loop of legacy_feature_extractor.py 119–132: `last` is the variable `values`, which keeps its value if no kind is set (without one
there is UnboundLocalError, given as RuntimeError here). -/
def parseLoop (materialize : Bool) : Dict Name (Option A) → Option A → Dict Name (Item A) → Extr A →
    Except Err (Dict Name (Item A) × Extr A)
  | [], _, fs, r => .ok (fs, r)
  | (name, kind) :: es, last, fs, r =>
    if materialize = true ∨ ¬ Dict.has fs name then
      match kind.or last with
      | none => .error .runtimeError
      | some values =>
        let key := Keys.compoundKey [featuresKey, name]
        parseLoop materialize es (some values)
          (if Dict.has fs name then fs else Dict.set fs name (.node (.rows [values])))
          (if materialize then Dict.set r key (.column key (.val values)) else r)
    else parseLoop materialize es last fs r

/-- The features of the example in a value of the extracts; nothing if it cannot be parsed (a warning is logged).
(legacy_feature_extractor.py 109–113) -/
def parsed : Slot A → Dict Name (Option A)
  | .example (some e) => e
  | _ => []

/-- legacy_feature_extractor.py 106–132 `_ParseExample`: the features of the FPL, if there is one, are changed in place. -/
def parseExample (materialize : Bool) (input : Slot A) (r : Extr A) : Except Err (Extr A) :=
  match Dict.get? r fplKey with
  | none => match parseLoop materialize (parsed input) none [] r with
    | .error e => .error e
    | .ok (_, r') => .ok r'
  | some (.fpl f) => match parseLoop materialize (parsed input) none f.features r with
    | .error e => .error e
    | .ok (fs, r') => .ok (Dict.set r' fplKey (.fpl { f with features := fs }))
  | some _ => .error .attributeError

/-- legacy_feature_extractor.py 135–206 `_MaterializeFeatures`. -/
def materialize (add : Option (List Name)) (excludes : Option (List Name)) (source dest : Name) (extracts : Extr A) : Except Err (Extr A) :=
  match additional excludes (add.getD []) extracts with
  | .error e => .error e
  | .ok r =>
    if source = fplKey then
      match Dict.get? r fplKey with
      | none => .error .runtimeError
      | some s =>
        if s.truthy = false then .error .runtimeError
        else match s with
          | .fpl f => match augment featuresKey excludes f.features r with
            | .error e => .error e
            | .ok r1 => match augment predictionsKey excludes f.predictions r1 with
              | .error e => .error e
              | .ok r2 => augment labelsKey excludes f.labels r2
          | _ => .error .typeError
    else if source = inputKey then
      match Dict.get? r inputKey with
      | none => .error .runtimeError
      | some s =>
        if s.truthy = false then .error .runtimeError
        else parseExample (decide (dest = materializeColumns)) s r
    else .error .runtimeError

/-! ### Meta features -/

/-- A new feature: an array, a sparse tensor, or another value, which becomes an array of one element.
(legacy_meta_feature_extractor.py 40–51) -/
inductive New (A : Type) where
  | value (v : Val A)
  | single (a : A)

/-- legacy_meta_feature_extractor.py 45–50. -/
def New.stored : New A → Item A
  | .value v => .node v
  | .single a => .node (.rows [a])

/-- legacy_meta_feature_extractor.py 71–80 `update_fpl_features`. -/
def updateFeatures (fs : Dict Name (Item A)) : Dict Name (New A) → Except Err (Dict Name (Item A))
  | [] => .ok fs
  | (k, v) :: new => if Dict.has fs k then .error .valueError else updateFeatures (Dict.set fs k v.stored) new

/-- legacy_meta_feature_extractor.py 83–99 `_ExtractMetaFeature` with 54–68 `get_fpl_copy`.  `fn` computes the new features; it is taken to
change nothing. -/
def metaFeature (fn : Fpl A → Except Err (Dict Name (New A))) (extracts : Extr A) : Except Err (Extr A) :=
  match Dict.get? extracts fplKey with
  | none => .error .runtimeError
  | some s =>
    if s.truthy = false then .error .runtimeError
    else match s with
      | .fpl f => match fn f with
        | .error e => .error e
        | .ok new => match updateFeatures f.features new with
          | .error e => .error e
          | .ok fs => .ok (Dict.set extracts fplKey (.fpl { f with features := fs }))
      | _ => .error .attributeError

end LegacyFeatures
end TFMA
