/-!
# Python basics used by every part of the model

Exceptions are values (`Except Err α`); messages are not modelled, only the class of the exception.
-/

namespace TFMA

/-- Python exception classes that the modelled code raises (message text dropped). -/
inductive Err where
  | valueError
  | keyError
  | typeError
  | indexError
  | assertionError
  | runtimeError
  | zeroDivisionError
  | notImplementedError
  | stopIteration
  | unicodeError
  | attributeError
  deriving DecidableEq, Repr

/-- Python `dict`: association list in insertion order. -/
abbrev Dict (K V : Type) := List (K × V)

namespace Dict

variable {K V : Type} [DecidableEq K]

/-- `d.get(k)`. -/
def get? : Dict K V → K → Option V
  | [], _ => none
  | (k', v) :: d, k => if k' = k then some v else get? d k

/-- `k in d`. -/
def has (d : Dict K V) (k : K) : Bool := (get? d k).isSome

/-- `d[k] = v`: replaces in place if present, else appends at the end. -/
def set : Dict K V → K → V → Dict K V
  | [], k, v => [(k, v)]
  | (k', v') :: d, k, v => if k' = k then (k', v) :: d else (k', v') :: set d k v

/-- `del d[k]` (no effect if absent; callers that rely on KeyError test `has` first). -/
def del : Dict K V → K → Dict K V
  | [], _ => []
  | (k', v') :: d, k => if k' = k then del d k else (k', v') :: del d k

/-- `keys d()`. -/
def keys (d : Dict K V) : List K := d.map Prod.fst

/-- `d.update(e)`. -/
def update (d e : Dict K V) : Dict K V := e.foldl (fun acc kv => set acc kv.1 kv.2) d

/-- A dict as python can hold it: each key once. -/
def WF (d : Dict K V) : Prop := (keys d).Nodup

end Dict

end TFMA
