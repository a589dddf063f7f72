import Verif.Model.SliceKeys

/-!
# Model of writing records per slice and loading them by slice

writers/metrics_plots_and_validations_writer.py. The three loaders (metrics, plots, attributions) and the three converters
have the same code for slice keys; `V` stands for the values. Files, paths and formats are not modelled: the records are read
in the order in which they are found.
-/

namespace TFMA
namespace Slicer

/-- The key of a record: `oneof slicing_spec_oneof` (proto/metrics_for_slice.proto 299–305, 425–431, 480–486). -/
inductive StoredKey where
  | slice (k : SliceKeyProto)
  | cross (k : CrossSliceKeyProto)

/-- A stored record. (writers/metrics_plots_and_validations_writer.py 363–470) -/
structure Stored (V : Type) where
  key : StoredKey
  value : V

/-- The key of a result. (writers/metrics_plots_and_validations_writer.py 363–368) -/
inductive ResultKey where
  | slice (k : SliceKey)
  | cross (baseline comparison : SliceKey)

/-- 365–368, 477–480, 579–582: the key of a result is stored. -/
def storeKey (R : SingleRounding) : ResultKey → Except Err StoredKey
  | .slice k => (serializeKey R k).map .slice
  | .cross b c => (serializeCross R (b, c)).map .cross

/-- All results are stored. (writers/metrics_plots_and_validations_writer.py 363–368) -/
def store {V : Type} (R : SingleRounding) (results : List (ResultKey × V)) : Except Err (List (Stored V)) :=
  mapE (fun r => (storeKey R r.1).map fun k => ⟨k, r.2⟩) results

/-- `metrics.slice_key`: an empty message if the other field of the oneof is set.
(writers/metrics_plots_and_validations_writer.py 169–171, 210–212, 251–253) -/
def StoredKey.sliceKey : StoredKey → SliceKeyProto
  | .slice k => k
  | .cross _ => []

/-- 166–173, 216–223, 266–273: the records that are yielded; no specs means all of them. -/
def load {V : Type} (c : NumCodec) (specs : List Spec) : List (Stored V) → Except Err (List (Stored V))
  | [] => .ok []
  | r :: rest =>
    if specs.isEmpty then (load c specs rest).map (r :: ·)
    else match deserializeKey r.key.sliceKey with
      | .error e => .error e
      | .ok k =>
        if !sliceKeyMatches c k specs then load c specs rest
        else (load c specs rest).map (r :: ·)

/-- The same loop if the specs are given as an iterator, which is consumed by `slice_key_matches_slice_specs`
(slicer_lib.py 660–663) up to the first match. An iterator is true as a condition. -/
def loadIterator {V : Type} (c : NumCodec) : List Spec → List (Stored V) → Except Err (List (Stored V))
  | _, [] => .ok []
  | specs, r :: rest =>
    match deserializeKey r.key.sliceKey with
    | .error e => .error e
    | .ok k =>
      let left := (specs.dropWhile fun s => !s.isSliceApplicable c k).tail
      if !sliceKeyMatches c k specs then loadIterator c left rest
      else (loadIterator c left rest).map (r :: ·)

end Slicer
end TFMA
