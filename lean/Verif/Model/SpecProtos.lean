import Verif.Model.Slicer

/-!
# Slice specs written to a config and read back

slicer/slicer_lib.py 133–135 (`SingleSliceSpec(spec=...)`) and 164–168 (`to_proto`), the way slice specs
take from the deprecated `slice_spec` arguments (api/model_eval_lib.py 151–153 and 1422–1425,
writers/eval_config_writer.py 102–104) through the config to the slicing of the pipeline.
-/

namespace TFMA
namespace SpecProtos

open Slicer

/-- The fields of a `SlicingSpec` message that `to_proto` writes: `repeated string feature_keys` and
`map<string, string> feature_values` (proto/config.proto 164 and 174).  The map is a list in some order;
`slice_keys_sql` is not touched by these functions. -/
structure SpecPb where
  keys : List String
  values : Dict String String

/-- `str(v)` for a feature value (slicer/slicer_lib.py 165). -/
def showVal (c : NumCodec) : Val → String
  | .str s => s
  | .int i => c.showInt i
  | .flt q => c.showFloat q

/-- slicer/slicer_lib.py 164–168 `to_proto`: the dict comprehension writes the entries in the iteration
order of the frozenset, a later one of the same name over an earlier one. -/
def toProto (c : NumCodec) (s : Spec) : SpecPb where
  keys := s.columns
  values := Dict.update [] (s.features.map (fun e => (e.1, showVal c e.2)))

/-- slicer/slicer_lib.py 133–135: the columns and the items of the map of the message, then the rest of
the constructor (137–156). -/
def ofProto (c : NumCodec) (pb : SpecPb) : Except Err Spec :=
  mkSpec c pb.keys (pb.values.map (fun kv => (kv.1, Val.str kv.2)))

/-- slicer/slicer_lib.py 133–135 for every spec of a config made of old slice specs
(api/model_eval_lib.py 151–153, 1422–1425; writers/eval_config_writer.py 102–104). -/
def throughConfig (c : NumCodec) (specs : List Spec) : Except Err (List Spec) :=
  (specs.map (toProto c)).mapM (ofProto c)

end SpecProtos
end TFMA
