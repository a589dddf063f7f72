import Verif.Py.Basic
import Mathlib.Data.String.Basic

/-!
# Functions called with keyword arguments only

utils/util.py 786–856 `kwargs_only`. A function is given by its parameters; what a call does is what the parameters are bound to.
The branch for Python 2 (`inspect.getargspec`, 802–806) is left out.
-/

namespace TFMA
namespace KwargsOnly

variable {V : Type}

/-- The parameters of a function: those that can be given by position, the values of the last ones that may be left out,
`*args`, `**kwargs`, how many of the first can only be given by position, and those behind `*`. (`inspect.getfullargspec`, 799; the
number of positional parameters only matters at the call) -/
structure Sig (V : Type) where
  args : List String
  defaults : List V
  varargs : Bool
  varkw : Bool
  posOnly : ℕ
  kwOnly : List (String × Option V)

/-- `l[-len(xs):] = xs`, which replaces all of `l` if `xs` is empty. (utils/util.py 817–818) -/
def assignTail {α : Type} (l xs : List α) : List α :=
  (if xs.length = 0 then [] else l.take (l.length - xs.length)) ++ xs

/-- `has_default`. (utils/util.py 813, 816–817) -/
def hasDefault (s : Sig V) : List Bool :=
  let l := List.replicate s.args.length false
  if s.defaults.isEmpty then l else assignTail l (List.replicate s.defaults.length true)

/-- `default_values`; `none` is Python's `None`. (utils/util.py 814, 816, 818) -/
def defaultValues (none : V) (s : Sig V) : List V :=
  let l := List.replicate s.args.length none
  if s.defaults.isEmpty then l else assignTail l s.defaults

/-- The parameters with their defaults, as Python binds them. (language) -/
def params (s : Sig V) : List (String × Option V) :=
  s.args.zip (List.replicate (s.args.length - s.defaults.length) none ++ s.defaults.map some)

/-- Binds the parameters to what is given or the default. (language) -/
def fill (d : Dict String V) : List (String × Option V) → Except Err (Dict String V)
  | [] => .ok []
  | (n, dflt) :: rest =>
    match (d.get? n).or dflt with
    | none => .error .typeError
    | some v =>
      match fill d rest with
      | .error e => .error e
      | .ok b => .ok ((n, v) :: b)

/-- `fn(**d)` for a function without `*args` and `**kwargs`. (language; utils/util.py 854) -/
def call (s : Sig V) (d : Dict String V) : Except Err (Dict String V) :=
  if (Dict.keys d).any fun k => decide (k ∉ s.args.drop s.posOnly ∧ k ∉ s.kwOnly.map Prod.fst) then .error .typeError
  else fill d (params s ++ s.kwOnly)

/-- utils/util.py 837–846: the loop over the parameters; `kwargs` loses what is used. -/
def passLoop : List (String × Bool × V) → Dict String V → Dict String V → Except Err (Dict String V × Dict String V)
  | [], kwargs, pass => .ok (pass, kwargs)
  | (n, has, dflt) :: rest, kwargs, pass =>
    if !has && !Dict.has kwargs n then .error .typeError
    else passLoop rest (Dict.del kwargs n) (Dict.set pass n ((kwargs.get? n).getD dflt))

/-- utils/util.py 799–815: what is checked when a function is wrapped; whether its first parameter is `self`. -/
def wrap (s : Sig V) : Except Err Bool :=
  if s.varargs then .error .typeError
  else if s.varkw then .error .typeError
  else match s.args with
    | [] => .error .indexError
    | a :: _ => .ok (decide (a = "self"))

/-- utils/util.py 820–854 `wrapped_fn`. -/
def wrapped (none : V) (s : Sig V) (hasSelf : Bool) (args : List V) (kwargs : Dict String V) : Except Err (Dict String V) :=
  if !args.isEmpty && (!hasSelf || (hasSelf && decide (args.length ≠ 1))) then .error .typeError
  else
    let own : Except Err (Dict String V) :=
      if hasSelf then
        match args with
        | [x] => .ok (Dict.set kwargs "self" x)
        | _ => .error .typeError
      else .ok kwargs
    match own with
    | .error e => .error e
    | .ok kwargs =>
      match passLoop (s.args.zip ((hasDefault s).zip (defaultValues none s))) kwargs [] with
      | .error e => .error e
      | .ok (pass, left) => if left.isEmpty then call s pass else .error .typeError

/-- `kwargs_only(fn)(*args, **kwargs)`. (utils/util.py 786–856) -/
def callWrapped (none : V) (s : Sig V) (args : List V) (kwargs : Dict String V) : Except Err (Dict String V) :=
  match wrap s with
  | .error e => .error e
  | .ok hasSelf => wrapped none s hasSelf args kwargs

end KwargsOnly
end TFMA
