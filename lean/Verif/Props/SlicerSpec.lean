import Verif.Model.Slicer

/-!
# Specification of slicing, independent of the slicing code

What it means for an example to have a feature value, and which slice keys a spec describes.
-/

namespace TFMA
namespace Slicer

/-- Some of the dictionaries defines feature `k` (with a value other than None). -/
def Defined (ds : List Features) (k : String) : Prop :=
  ∃ d ∈ ds, ∃ vs, Dict.get? d k = some (some vs)

/-- Value `r` occurs for feature `k` in some of the dictionaries. -/
def PresentIn (ds : List Features) (k : String) (r : RawVal) : Prop :=
  ∃ d ∈ ds, ∃ vs, Dict.get? d k = some (some vs) ∧ r ∈ vs

/-- The example has value `r` for feature `k`: in one of its feature dictionaries, or, if none of them
defines `k`, in the default dictionary. -/
def Observed (a : Accessor) (k : String) (r : RawVal) : Prop :=
  PresentIn a.dicts k r ∨ (¬ Defined a.dicts k ∧ PresentIn [a.dflt] k r)

/-- The slice value that a raw feature value is shown as: bytes are decoded as UTF-8 text. -/
inductive Reads : RawVal → Val → Prop where
  | str (s : String) : Reads (.str s) (.str s)
  | int (i : Int) : Reads (.int i) (.int i)
  | flt (q : ℚ) : Reads (.flt q) (.flt q)
  | bytes (s : String) : Reads (.bytes s.toByteArray) (.str s)

/-- A configured slice value `v` is met by the raw value `r`: equal, or equal text stored as bytes, or a
number stored as text. -/
inductive Meets (c : NumCodec) : Val → RawVal → Prop where
  | text (s : String) : Meets c (.str s) (.str s)
  | textBytes (s : String) : Meets c (.str s) (.bytes s.toByteArray)
  | intInt (i : Int) : Meets c (.int i) (.int i)
  | intFlt (i : Int) (q : ℚ) : (i : ℚ) = q → Meets c (.int i) (.flt q)
  | fltInt (i : Int) (q : ℚ) : (i : ℚ) = q → Meets c (.flt q) (.int i)
  | fltFlt (q : ℚ) : Meets c (.flt q) (.flt q)
  | intText (i : Int) : Meets c (.int i) (.str (c.showInt i))
  | fltText (q : ℚ) : Meets c (.flt q) (.str (c.showFloat q))

/-- Entries ascend by name and then value. -/
def Ascending (key : SliceKey) : Prop := key.Pairwise (fun a b => rank a ≤ rank b)

/-- The slice keys that a spec with the given columns and fixed pairs describes for an example. -/
def Describes (c : NumCodec) (cols : List String) (feats : List Entry) (a : Accessor)
    (key : SliceKey) : Prop :=
  (∀ e ∈ feats, ∃ r, Observed a e.1 r ∧ Meets c e.2 r) ∧
  ∃ choice : String → Val,
    (∀ col ∈ cols, ∃ r, Observed a col r ∧ Reads r (choice col)) ∧
    key.Perm (feats ++ cols.map (fun col => (col, choice col))) ∧ Ascending key

end Slicer
end TFMA
