import Verif.Basic

/-!
# Comparing values

`/repo/compare.go`.  The protobuf library and `reflect.DeepEqual` are not part of the
repository; they are parameters.
-/

namespace Verif

/-- What Go and the protobuf library offer: which values implement `proto.Message`
(`a.(proto.Message)`), `proto.Equal` and `reflect.DeepEqual` (`/repo/compare.go` 37-45). -/
structure GoEq (V P : Type) where
  asProto : V → Option P
  protoEqual : P → P → Bool
  deepEqual : V → V → Bool

/-- `equal` (`compare.go` 38-46); `DefaultMessageComparator` (20-22) is the same function. -/
def equal {V P : Type} (g : GoEq V P) (a b : V) : Bool :=
  match g.asProto a with
  | some pa =>
    match g.asProto b with
    | some pb => g.protoEqual pa pb
    | none => g.deepEqual a b
  | none => g.deepEqual a b

end Verif
