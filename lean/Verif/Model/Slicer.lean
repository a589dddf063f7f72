import Verif.Py.Basic
import Mathlib.Data.Prod.Lex
import Mathlib.Data.String.Basic
import Mathlib.Algebra.Order.Ring.Rat

/-!
# Model of `slicer/slicer_lib.py` and `slicer/slice_accessor.py`

Slice key values are text, integers or floats.  Floats are finite and modelled by `ℚ` (NaN and the
infinities are not modelled as slice values).  `int()`, `float()` and `str()` are parameters
(`NumCodec`): every theorem holds for every such conversion.
-/

namespace TFMA
namespace Slicer

/-- python's `int(s)`, `float(s)` (none = ValueError) and `str(number)`.
(abstract: the builtins used in slicer/slicer_lib.py 378–389) -/
structure NumCodec where
  parseInt : String → Option Int
  parseFloat : String → Option ℚ
  showInt : Int → String
  showFloat : ℚ → String

/-- slicer_lib.py:44 `FeatureValueType = Union[str, int, float]`. -/
inductive Val where
  | str (s : String)
  | int (i : Int)
  | flt (q : ℚ)
  deriving DecidableEq

/-- Values found in extracted features: as `Val` plus raw bytes.
(slicer/slicer_lib.py 44–60 and slice_accessor.py 56–117) -/
inductive RawVal where
  | str (s : String)
  | bytes (b : ByteArray)
  | int (i : Int)
  | flt (q : ℚ)
  deriving DecidableEq

/-- Equality classes of values under python `==`/`hash`: `1 == 1.0`, text never equals a number.
(python builtin equality) -/
inductive CVal where
  | txt (s : String)
  | num (q : ℚ)
  deriving DecidableEq

/-- The equality class of a value. (python builtin equality) -/
def Val.canon : Val → CVal
  | .str s => .txt s
  | .int i => .num (i : ℚ)
  | .flt q => .num q

/-- A slice key entry, slicer_lib.py:49 `SingletonSliceKeyType`. -/
abbrev Entry := String × Val

/-- slicer_lib.py:53 `SliceKeyType`. -/
abbrev SliceKey := List Entry

/-- Python equality class of an entry. (python builtin equality) -/
def canonE (e : Entry) : String × CVal := (e.1, e.2.canon)

/-- Python `==` on entries. (python builtin equality) -/
def entryEq (a b : Entry) : Bool := decide (canonE a = canonE b)

/-- slicer_lib.py:378-389 `_to_type`. -/
def toType (c : NumCodec) : Val → Val
  | .int i => .int i
  | .flt q => .flt q
  | .str s =>
    if '.' ∈ s.toList then
      match c.parseFloat s with
      | some q => .flt q
      | none => .str s
    else
      match c.parseInt s with
      | some i => .int i
      | none => .str s

/-- slicer_lib.py:65 `SingleSliceSpec`: the two frozensets as duplicate free lists in iteration order. -/
structure Spec where
  columns : List String
  features : List Entry

/-- Python tuple ordering on entries (name first, then value).  Python raises TypeError when the same
name carries both a text and a number; here numbers are put before text instead.
(used by `sorted` in slicer/slicer_lib.py 254–272) -/
def rank (e : Entry) : String ×ₗ ℕ ×ₗ ℚ ×ₗ ℕ ×ₗ String :=
  match e.2 with
  | .int i => toLex (e.1, toLex (0, toLex ((i : ℚ), toLex (0, ""))))
  | .flt q => toLex (e.1, toLex (0, toLex (q, toLex (1, ""))))
  | .str s => toLex (e.1, toLex (1, toLex (0, toLex (0, s))))

/-- `sorted(list_of_entries)`. (slicer/slicer_lib.py 254–272) -/
def sortEntries (l : List Entry) : List Entry := l.mergeSort (fun a b => decide (rank a ≤ rank b))

/-- `frozenset(l)` as a duplicate free list: the first element of each python equality class is kept.
(slicer/slicer_lib.py 96–156 `_value_matches`, `_columns`) -/
def frozensetE : List Entry → List Entry
  | [] => []
  | e :: l => e :: (frozensetE l).filter (fun e' => !entryEq e e')

/-- slicer_lib.py:96-156 `SingleSliceSpec.__init__` (the checks for `columns`/`features` being plain
strings are not modelled: the argument types rule them out). -/
def mkSpec (c : NumCodec) (columns : List String) (features : List Entry) : Except Err Spec :=
  let feats := frozensetE (features.map (fun e => (e.1, toType c e.2)))
  let cols := columns.eraseDups
  if feats.any (fun e => decide (e.1 ∈ cols)) then .error .valueError
  else .ok ⟨cols, feats⟩

/-- slicer_lib.py:170-172 `is_overall`. -/
def Spec.isOverall (s : Spec) : Bool := s.columns.isEmpty && s.features.isEmpty

/-- slicer_lib.py:187-199, the loop of `is_slice_applicable`; `list.remove` removes the first equal
element. -/
def applicableLoop (c : NumCodec) : SliceKey → (columns : List String) → (features : List Entry) → Bool
  | [], columns, features => features.isEmpty && columns.isEmpty
  | (k, v) :: rest, columns, features =>
    let e : Entry := (k, toType c v)
    if features.any (fun f => entryEq e f) then
      applicableLoop c rest columns (features.eraseP (fun f => entryEq e f))
    else if k ∈ columns then
      applicableLoop c rest (columns.erase k) features
    else
      false

/-- slicer_lib.py:174-200 `is_slice_applicable`. -/
def Spec.isSliceApplicable (c : NumCodec) (s : Spec) (key : SliceKey) : Bool :=
  applicableLoop c key s.columns s.features

/-- One features dictionary; `none` is a present key with value None.  Tensor/array wrappers
(slice_accessor.py:76-100 `normalize_value`) are represented by their flattened value list. -/
abbrev Features := Dict String (Option (List RawVal))

/-- slice_accessor.py:31-42 `SliceAccessor`; a missing default dictionary is the empty one. -/
structure Accessor where
  dicts : List Features
  dflt : Features

/-- slice_accessor.py:44-54 `has_key`. -/
def Accessor.hasKey (a : Accessor) (k : String) : Bool :=
  a.dicts.any (fun d => match Dict.get? d k with | some (some _) => true | _ => false)
  || (match Dict.get? a.dflt k with | some (some _) => true | _ => false)

/-- slice_accessor.py:103-111: concatenate the values found in the feature dictionaries. -/
def collect (k : String) : List Features → Option (List RawVal) → Option (List RawVal)
  | [], values => values
  | d :: ds, values =>
    match Dict.get? d k with
    | some (some vs) =>
      match values with
      | none => collect k ds (some vs)
      | some old => collect k ds (some (old ++ vs))
    | _ => collect k ds values

/-- slice_accessor.py:55–113 `get`.  `np.unique` also sorts; only the set of values matters because the
slice keys end up in a set, so just the removal of duplicates is modelled. -/
def Accessor.get (a : Accessor) (k : String) : Except Err (List RawVal) :=
  let values := collect k a.dicts none
  let values := match values with
    | none => (Dict.get? a.dflt k).join
    | some vs => some vs
  match values with
  | none => .error .keyError
  | some vs => .ok vs.dedup

/-- `value in accessor_values` for a slice value: python equality. (slicer/slicer_lib.py 231–244) -/
def rawIs (v : Val) : RawVal → Bool
  | .str s => decide (v.canon = .txt s)
  | .bytes _ => false
  | .int i => decide (v.canon = .num (i : ℚ))
  | .flt q => decide (v.canon = .num q)

/-- python `str(value)` for numbers. (slicer/slicer_lib.py 378–389) -/
def showVal (c : NumCodec) : Val → String
  | .str s => s
  | .int i => c.showInt i
  | .flt q => c.showFloat q

/-- slicer_lib.py:237-244: the test for one fixed feature value, given the accessor's values. -/
def featureMatches (c : NumCodec) (value : Val) (vals : List RawVal) : Bool :=
  if vals.any (rawIs value) then true
  else match value with
    | .str s => vals.any (fun r => decide (r = .bytes s.toByteArray))
    | v => vals.any (fun r => decide (r = .str (showVal c v)))

/-- slicer_lib.py:231-244: the loop over fixed features; `false` = `return` (nothing generated). -/
def checkFeatures (c : NumCodec) (a : Accessor) : List Entry → Except Err Bool
  | [] => .ok true
  | (k, v) :: rest =>
    if a.hasKey k then
      match a.get k with
      | .error e => .error e
      | .ok vals => if featureMatches c v vals then checkFeatures c a rest else .ok false
    else .ok false

/-- slicer_lib.py:261-271: one column value; bytes must be UTF-8. -/
def columnValue : RawVal → Except Err Val
  | .str s => .ok (.str s)
  | .int i => .ok (.int i)
  | .flt q => .ok (.flt q)
  | .bytes b => match String.fromUTF8? b with
    | some s => .ok (.str s)
    | none => .error .valueError

/-- `[... for value in values]` where the body may raise. (python comprehension) -/
def mapE {α β : Type} (f : α → Except Err β) : List α → Except Err (List β)
  | [] => .ok []
  | x :: xs => match f x with
    | .error e => .error e
    | .ok y => match mapE f xs with
      | .error e => .error e
      | .ok ys => .ok (y :: ys)

/-- slicer_lib.py:254-272: `column_matches`; `none` = `return` because a column is missing. -/
def columnMatches (a : Accessor) : List String → Except Err (Option (List (List Entry)))
  | [] => .ok (some [])
  | col :: rest =>
    if a.hasKey col then
      match a.get col with
      | .error e => .error e
      | .ok vals =>
        match mapE columnValue vals with
        | .error e => .error e
        | .ok vs =>
          match columnMatches a rest with
          | .error e => .error e
          | .ok none => .ok none
          | .ok (some ms) => .ok (some (vs.map (fun v => (col, v)) :: ms))
    else .ok none

/-- `itertools.product(*lists)` (last list varies fastest). (slicer/slicer_lib.py 261–271) -/
def product {α : Type} : List (List α) → List (List α)
  | [] => [[]]
  | l :: ls => l.flatMap (fun x => (product ls).map (fun r => x :: r))

/-- slicer_lib.py:202-282 `generate_slices` (the generator collected into a list). -/
def Spec.generateSlices (c : NumCodec) (s : Spec) (a : Accessor) : Except Err (List SliceKey) :=
  match checkFeatures c a s.features with
  | .error e => .error e
  | .ok false => .ok []
  | .ok true =>
    match columnMatches a s.columns with
    | .error e => .error e
    | .ok none => .ok []
    | .ok (some ms) =>
      let valueMatches := sortEntries s.features
      .ok ((product ms).map (fun columnPart => sortEntries (valueMatches ++ columnPart)))

/-- slicer_lib.py:456-482 `get_slices_for_features_dicts`. -/
def getSlices (c : NumCodec) (a : Accessor) : List Spec → Except Err (List SliceKey)
  | [] => .ok []
  | s :: ss =>
    match s.generateSlices c a with
    | .error e => .error e
    | .ok ks => match getSlices c a ss with
      | .error e => .error e
      | .ok rest => .ok (ks ++ rest)

/-- slicer_lib.py:642-663 `slice_key_matches_slice_specs`. -/
def sliceKeyMatches (c : NumCodec) (key : SliceKey) (specs : List Spec) : Bool :=
  specs.any (fun s => s.isSliceApplicable c key)

/-- Python equality of slice keys. (python builtin equality) -/
def keyEq (a b : SliceKey) : Bool := decide (a.map canonE = b.map canonE)

/-- `set(slice_keys)` as a list: one representative (the first) per python equality class.
(slicer/slicer_lib.py 680–696) -/
def keySet : List SliceKey → List SliceKey
  | [] => []
  | k :: ks => k :: (keySet ks).filter (fun k' => !keyEq k k')

/-- extractors/slice_key_extractor.py:102-150 `ExtractSliceKeysFn.process` followed by
slicer_lib.py:680-696 `_FanoutSlicesDoFn.process`, for one example: `existing` are slice keys already in
the extract (written by the SQL extractor).  Result: the (slice key, example) pairs emitted. -/
def fanoutOne {ε : Type} (c : NumCodec) (specs : List Spec) (existing : List SliceKey)
    (acc : Accessor) (ex : ε) : Except Err (List (SliceKey × ε)) :=
  match getSlices c acc specs with
  | .error e => .error e
  | .ok ks => .ok ((keySet (keySet (ks ++ existing))).map (fun k => (k, ex)))

/-- Fan-out of a whole collection of examples (`beam.ParDo` over all examples). (slicer/slicer_lib.py 729–752) -/
def fanout {ε : Type} (c : NumCodec) (specs : List Spec) :
    List (List SliceKey × Accessor × ε) → Except Err (List (SliceKey × ε))
  | [] => .ok []
  | (existing, acc, ex) :: rest =>
    match fanoutOne c specs existing acc ex with
    | .error e => .error e
    | .ok ps => match fanout c specs rest with
      | .error e => .error e
      | .ok qs => .ok (ps ++ qs)

end Slicer
end TFMA
