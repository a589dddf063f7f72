import Verif.Model.MetricKeys

/-!
# Equality and hashes of keys, preprocessors and computations

`metrics/metric_types.py` 87–97, 199–209, 303–304 and 329–330 (keys), 487–514 (preprocessors), 571–589, 631–645 and 695–712
(computations).  These objects are kept in sets and dicts, so that `==` and `hash` decide which of them count as one.  A hash of a tuple is
an arbitrary function of what the equality of tuples compares.
-/

namespace TFMA
namespace Identity

open MetricKeys

/-! ### Keys -/

/-- A member of a key; truth values are numbers in python. (metrics/metric_types.py 48–60 and 149–170) -/
inductive Cell where
  | none
  | bool (b : Bool)
  | int (z : ℤ)

/-- `==` of members: `True == 1`. (python builtin, used in metrics/metric_types.py 88, 200) -/
def Cell.eq : Cell → Cell → Bool
  | .none, .none => true
  | .bool a, .bool b => a == b
  | .int a, .int b => decide (a = b)
  | .bool a, .int b => decide ((if a then 1 else 0) = b)
  | .int a, .bool b => decide (a = (if b then 1 else 0))
  | _, _ => false

/-- What the hash of a member depends on: `hash(True) == hash(1)`. (python builtin, used in metrics/metric_types.py 97, 209) -/
def Cell.hashed : Cell → Option ℤ
  | .none => Option.none
  | .bool b => some (if b then 1 else 0)
  | .int z => some z

/-- A sub key or an aggregation type. (metrics/metric_types.py 48–209) -/
inductive KeyPart where
  | subKey (s : SubKey)
  | aggregation (a : AggregationType)

/-- `tuple(self)`. (metrics/metric_types.py 88, 97, 200, 209) -/
def KeyPart.cells : KeyPart → List Cell
  | .subKey s => [s.classId, s.k, s.topK].map fun x => match x with | some z => .int z | Option.none => .none
  | .aggregation a => [a.microAvg, a.macroAvg, a.weightedMacro].map fun x => match x with | some b => .bool b | Option.none => .none

/-- `==` of tuples. (python builtin, used in metrics/metric_types.py 88, 200) -/
def cellsEq : List Cell → List Cell → Bool
  | [], [] => true
  | x :: xs, y :: ys => x.eq y && cellsEq xs ys
  | _, _ => false

/-- metrics/metric_types.py 87–88 and 199–200 `__eq__`; the class of the other object is not looked at. -/
def KeyPart.eq (a b : KeyPart) : Bool := cellsEq a.cells b.cells

/-- metrics/metric_types.py 96–97 and 208–209 `__hash__`. -/
def KeyPart.hash (h : List (Option ℤ) → ℕ) (a : KeyPart) : ℕ := h (a.cells.map Cell.hashed)

/-! ### Preprocessors -/

/-- A preprocessor: the name it was given and the name of its class. (metrics/metric_types.py 491–493) -/
structure Preprocessor where
  name : Option String
  className : String

/-- metrics/metric_types.py 495–505 `name` and `preprocessor_id`; an empty name counts as none. -/
def Preprocessor.id (p : Preprocessor) : String :=
  match p.name with
  | none => p.className
  | some n => if n.isEmpty then p.className else n

/-- metrics/metric_types.py 507–511 `Preprocessor.__eq__`. -/
def Preprocessor.eq (p q : Preprocessor) : Bool := decide (p.id = q.id)

/-- `p != q`, which is not defined by the class or its base and therefore negates `==`. (metrics/metric_types.py 507–511) -/
def Preprocessor.ne (p q : Preprocessor) : Bool := !p.eq q

/-- metrics/metric_types.py 513–514 `Preprocessor.__hash__`: there is no method `_preprocessor_id`. -/
def Preprocessor.hash (_ : Preprocessor) : Except Err ℕ := .error .attributeError

/-! ### Computations -/

/-- The class of a computation. (metrics/metric_types.py 520–729) -/
inductive Kind where
  | metric | derived | ciDerived | crossSlice
  deriving DecidableEq

/-- A computation: its keys, its preprocessors (of a MetricComputation), and the object that computes, by its identity and the name of its
class.  Objects that compute are assumed not to define equality. (metrics/metric_types.py 520–729) -/
structure Comp where
  kind : Kind
  keys : List MetricKey
  preprocessors : List Preprocessor
  fn : ℕ
  fnClass : String

/-- metrics/metric_types.py 571–580, 631–636 and 695–703 `_computation_id`; only the id of a MetricComputation has preprocessors. -/
def Comp.id (c : Comp) : Except Err (String × List MetricKey × List String) :=
  match sortKeys c.keys with
  | .error e => .error e
  | .ok ks => .ok (c.fnClass, ks, if c.kind = .metric then c.preprocessors.map Preprocessor.id else [])

/-- `isinstance(other, ...)` in the method of `k`: a CIDerivedMetricComputation is a DerivedMetricComputation.
(metrics/metric_types.py 583, 639, 706 and 715) -/
def family : Kind → Kind → Bool
  | .metric, .metric => true
  | .derived, .derived | .derived, .ciDerived | .ciDerived, .derived | .ciDerived, .ciDerived => true
  | .crossSlice, .crossSlice => true
  | _, _ => false

/-- metrics/metric_types.py 582–586, 638–642 and 705–709 `__eq__`. -/
def Comp.eq (a b : Comp) : Except Err Bool :=
  if family a.kind b.kind then
    match a.id with
    | .error e => .error e
    | .ok i =>
      match b.id with
      | .error e => .error e
      | .ok j => .ok (decide (i = j))
  else .ok false

/-- metrics/metric_types.py 588–589, 644–645 and 711–712 `__hash__`. -/
def Comp.hash (h : String × List MetricKey × List String → ℕ) (c : Comp) : Except Err ℕ :=
  match c.id with
  | .error e => .error e
  | .ok i => .ok (h i)

/-- `==` of lists of preprocessors. (python builtin; metrics/metric_types.py 507–511) -/
def preprocessorsEq : List Preprocessor → List Preprocessor → Bool
  | [], [] => true
  | p :: ps, q :: qs => p.eq q && preprocessorsEq ps qs
  | _, _ => false

/-- `a != b`: the classes define only `__eq__` and inherit `__ne__` of tuples, which compares the members; a MetricComputation has three
members, the others have two. (metrics/metric_types.py 520–529, 592–600, 653–661) -/
def Comp.ne (a b : Comp) : Bool :=
  if (a.kind = .metric) ↔ (b.kind = .metric) then
    !(decide (a.keys = b.keys) && (decide (a.kind ≠ .metric) || preprocessorsEq a.preprocessors b.preprocessors) && decide (a.fn = b.fn))
  else true

end Identity
end TFMA
