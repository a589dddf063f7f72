import Mathlib.Data.Nat.Notation
import Verif.Py.Basic

/-!
# Key helpers of utils/util.py: unique_key, compound_key, get_by_keys, copy_and_set_by_keys

Nested dictionaries are modelled with a heap, because `copy_and_set_by_keys` is about what is copied and what
is mutated in place: an address is the identity of a python object, a dictionary maps keys to addresses.
Leaves are opaque values of type `V`.
-/

namespace TFMA
namespace Keys

/-! ### unique_key -/

/-- The `while k in current_keys` loop of utils/util.py 453–457, run for at most `fuel` iterations
(`none` = still running).  `"%s_%d" % (key, index)` is `key ++ "_" ++ decimal digits of index`. -/
def uniqueLoop (key : String) (cur : List String) : ℕ → String → ℕ → Option String
  | 0, k, _ => if k ∈ cur then none else some k
  | fuel + 1, k, index =>
    if k ∈ cur then uniqueLoop key cur fuel (key ++ "_" ++ Nat.repr index) (index + 1) else some k

/-- utils/util.py 439–460 `unique_key`: the name returned and the list of current keys afterwards, when the
loop is run for at most `fuel` iterations. -/
def uniqueKey (fuel : ℕ) (key : String) (cur : List String) (updateKeys : Bool) :
    Option (String × List String) :=
  match uniqueLoop key cur fuel key 1 with
  | none => none
  | some k => some (k, if updateKeys then cur ++ [k] else cur)

/-! ### compound_key -/

/-- `key.replace("__", "____")` (utils/util.py 473, with KEY_SEPARATOR = "__" of line 49): `str.replace` scans
from the left and continues after the replaced occurrence.  Strings are lists of characters. -/
def escape : List Char → List Char
  | '_' :: '_' :: r => '_' :: '_' :: '_' :: '_' :: escape r
  | c :: r => c :: escape r
  | [] => []

/-- `"__".join(parts)`. (utils/util.py 473) -/
def joinSep : List (List Char) → List Char
  | [] => []
  | [a] => a
  | a :: b :: rest => a ++ '_' :: '_' :: joinSep (b :: rest)

/-- utils/util.py 463–473 `compound_key` with the default separator. -/
def compoundKey (keys : List (List Char)) : List Char := joinSep (keys.map escape)

/-! ### heap of nested dictionaries -/

/-- A python object: a dictionary (a `Mapping`; all mappings are taken to be mutable, as `dict` is) or
anything else. (utils/util.py 561–600) -/
inductive Obj (V : Type) where
  | val (v : V)
  | dict (d : Dict String ℕ)

/-- The heap; `h[a]?` is the object at address `a`. (python object identity, for utils/util.py 561–600) -/
abbrev Heap (V : Type) := List (Obj V)

variable {V : Type}

/-- The loop of utils/util.py 586–599 (the value is the object at address `value`).
`copy.copy` of an object makes a new object with the same (shallow) contents. -/
def setLoop : Heap V → ℕ → List String → ℕ → Except Err (Heap V)
  | h, _, [], _ => .ok h
  | h, visit, [k], value =>
    match h[visit]? with
    | some (.dict d) => .ok (h.set visit (.dict (Dict.set d k value)))
    | _ => .error .valueError
  | h, visit, k :: k' :: ks, value =>
    match h[visit]? with
    | some (.dict d) =>
      match Dict.get? d k with
      | none => setLoop ((h ++ [Obj.dict []]).set visit (.dict (Dict.set d k h.length))) h.length (k' :: ks) value
      | some b =>
        match h[b]? with
        | none => .error .runtimeError
        | some o => setLoop ((h ++ [o]).set visit (.dict (Dict.set d k h.length))) h.length (k' :: ks) value
    | _ => .error .valueError

/-- utils/util.py 561–600 `copy_and_set_by_keys`: the heap afterwards and the address of the returned root.
(A dangling address, which python does not have, is reported as runtimeError.) -/
def copyAndSetByKeys (h : Heap V) (root : ℕ) (keypath : List String) (value : ℕ) :
    Except Err (Heap V × ℕ) :=
  if keypath.isEmpty then .error .valueError
  else match h[root]? with
    | none => .error .runtimeError
    | some o =>
      match setLoop (h ++ [o]) h.length keypath value with
      | .error e => .error e
      | .ok h' => .ok (h', h.length)

/-- Current value in get_by_keys: an object of the heap or the freshly built dict `prefix_matches`.
(utils/util.py 518–544) -/
inductive Cur where
  | at (a : ℕ)
  | fresh (d : Dict String ℕ)
  deriving DecidableEq

/-- `value` if it is a `Mapping`. (utils/util.py 525) -/
def Cur.mapping? (h : Heap V) : Cur → Option (Dict String ℕ)
  | .at a => match h[a]? with
    | some (.dict d) => some d
    | _ => none
  | .fresh d => some d

/-- `k[len(key)+1:]` if `k.startswith(key + "/")`. (utils/util.py 536–538) -/
def stripPrefix? (key k : String) : Option String :=
  if (key.toList ++ ['/']).isPrefixOf k.toList then some (String.ofList (k.toList.drop (key.toList.length + 1)))
  else none

/-- `prefix_matches` of utils/util.py 535–538. -/
def prefixMatches (key : String) (d : Dict String ℕ) : Dict String ℕ :=
  d.foldl (fun acc kv => match stripPrefix? key kv.1 with
    | some k => Dict.set acc k kv.2
    | none => acc) []

/-- The loop of utils/util.py 518–544: the value and whether all keys were matched (`keys_matched == len(keys)`).
A key `None` is skipped. -/
def getLoop (h : Heap V) : Cur → List (Option String) → Except Err (Cur × Bool)
  | c, [] => .ok (c, true)
  | c, none :: ks => getLoop h c ks
  | c, some key :: ks =>
    match c.mapping? h with
    | none => .error .valueError
    | some d =>
      match Dict.get? d key with
      | some a => getLoop h (.at a) ks
      | none =>
        let pm := prefixMatches key d
        if pm.isEmpty then .ok (c, false) else getLoop h (.fresh pm) ks

/-- What get_by_keys returns. (utils/util.py 546–558) -/
inductive GetResult where
  | found (c : Cur)
  | default
  | none
  deriving DecidableEq

/-- utils/util.py 486–558 `get_by_keys`; `hasDefault` says whether a default value other than None is given. -/
def getByKeys (h : Heap V) (data : ℕ) (keys : List (Option String)) (hasDefault optional : Bool) :
    Except Err GetResult :=
  if keys.isEmpty then .error .valueError
  else match getLoop h (.at data) keys with
    | .error e => .error e
    | .ok (c, matched) =>
      if !matched || (match c.mapping? h with | some d => d.isEmpty | Option.none => false) then
        if hasDefault then .ok .default
        else if optional then .ok .none
        else .error .valueError
      else .ok (.found c)

end Keys
end TFMA
