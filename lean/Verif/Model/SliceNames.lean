import Verif.Model.Views

/-!
# Names of slices

slicer/slicer_lib.py 485–537 `stringify_slice_key`, the column of slice names of extractors/slice_key_extractor.py 139–158 and the
names shown by view/util.py 84–110.

Columns are valid text (UTF-8); the text of numbers is the given `str`. (524–530)
-/

namespace TFMA
namespace SliceNames

open Slicer

/-- slicer/slicer_lib.py 528–530: `as_text(as_str_any(value))`. -/
def valueText (c : NumCodec) : Val → String
  | .str s => s
  | .int i => c.showInt i
  | .flt q => c.showFloat q

/-- `"_X_".join(…)`. (slicer/slicer_lib.py 520, 534–536) -/
def joinX : List String → String
  | [] => ""
  | [x] => x
  | x :: y :: rest => x ++ "_X_" ++ joinX (y :: rest)

/-- slicer/slicer_lib.py 485–537 `stringify_slice_key`; `OVERALL_SLICE_NAME` is at 60. -/
def stringify (c : NumCodec) (k : SliceKey) : String :=
  if k.length = 0 then "Overall"
  else joinX (k.map fun e => e.1) ++ ":" ++ joinX (k.map fun e => valueText c e.2)

/-- extractors/slice_key_extractor.py 147–157: the column of names written if `materialize` is set; `unique` are the slice keys of
the example without repetition, in the order of the set (139). -/
def namesColumn (c : NumCodec) (materialize : Bool) (unique : List SliceKey) : Option (List ByteArray) :=
  if materialize then some (unique.map fun k => (stringify c k).toUTF8) else none

end SliceNames
end TFMA
