import Verif.Spec.Facts

/-!
# Which byte strings a lenient reader accepts: an independent specification

`wire i` is the one encoding an encoder produces for the item `i`.  Decoders accept more: over-long
varints and varints whose value overflows the target type.  `Accepts p i` says that the byte string
`p` is a complete (canonical or not) encoding of `i`.  It uses no definition of any model.
-/

namespace Spec

/-- The bytes of one varint: at most `max` bytes, all but the last with the continuation bit. -/
def Varint (max : Nat) (cs : Bytes) : Prop :=
  ∃ init last, cs = init ++ [last] ∧ init.length < max ∧ (∀ c ∈ init, 128 ≤ c.toNat) ∧ last.toNat < 128

/-- The sum of the 7-bit groups, least significant group first. -/
def groupSum : Bytes → Nat
  | [] => 0
  | c :: cs => c.toNat % 128 + 128 * groupSum cs

/-- `p` is a complete encoding of the item. -/
inductive Accepts : Bytes → Item → Prop
  | nil : Accepts [kNil] .nil
  | map (k v : Byte) (cs : Bytes) : Varint 5 cs →
      Accepts (kMap :: k :: v :: kUint32 :: cs) (.map (BitVec.ofNat 32 (groupSum cs)) k v)
  | slice (k : Byte) (cs : Bytes) : Varint 5 cs →
      Accepts (kSlice :: k :: kUint32 :: cs) (.slice (BitVec.ofNat 32 (groupSum cs)) k)
  | bytes (cs v : Bytes) : Varint 5 cs → v.length = groupSum cs % 2 ^ 32 →
      Accepts (kBytes :: kUint32 :: (cs ++ v)) (.bytes v)
  | string (cs v : Bytes) : Varint 5 cs → v.length = groupSum cs % 2 ^ 32 →
      Accepts (kString :: kUint32 :: (cs ++ v)) (.string v)
  | error (cs v : Bytes) : Varint 5 cs → v.length = groupSum cs % 2 ^ 32 →
      Accepts (kError :: kString :: kUint32 :: (cs ++ v)) (.error v)
  | bool (v : Bool) : Accepts [kBool, if v then 1 else 0] (.bool v)
  | uint8 (v : BitVec 8) : Accepts [kUint8, v] (.uint8 v)
  | uint16 (cs : Bytes) : Varint 3 cs → Accepts (kUint16 :: cs) (.uint16 (BitVec.ofNat 16 (groupSum cs)))
  | uint32 (cs : Bytes) : Varint 5 cs → Accepts (kUint32 :: cs) (.uint32 (BitVec.ofNat 32 (groupSum cs)))
  | uint64 (cs : Bytes) : Varint 10 cs → Accepts (kUint64 :: cs) (.uint64 (BitVec.ofNat 64 (groupSum cs)))
  | int32 (cs : Bytes) : Varint 5 cs →
      Accepts (kInt32 :: cs) (.int32 (BitVec.ofInt 32 (unzigzag (groupSum cs % 2 ^ 32))))
  | int64 (cs : Bytes) : Varint 10 cs →
      Accepts (kInt64 :: cs) (.int64 (BitVec.ofInt 64 (unzigzag (groupSum cs % 2 ^ 64))))
  | float32 (p : Bytes) : p.length = 4 → Accepts (kFloat32 :: p) (.float32 (BitVec.ofNat 32 (fromBigEndian p)))
  | float64 (p : Bytes) : p.length = 8 → Accepts (kFloat64 :: p) (.float64 (BitVec.ofNat 64 (fromBigEndian p)))

/-- The kind byte of an item. -/
def Item.kind : Item → Byte
  | .nil => kNil
  | .map .. => kMap
  | .slice .. => kSlice
  | .bytes .. => kBytes
  | .string .. => kString
  | .error .. => kError
  | .bool .. => kBool
  | .uint8 .. => kUint8
  | .uint16 .. => kUint16
  | .uint32 .. => kUint32
  | .uint64 .. => kUint64
  | .int32 .. => kInt32
  | .int64 .. => kInt64
  | .float32 .. => kFloat32
  | .float64 .. => kFloat64

/-- A varint cut off by the end of the input: at least one but fewer than `max` bytes, all with the
continuation bit. -/
def Cut (max : Nat) (cs : Bytes) : Prop := cs ≠ [] ∧ cs.length < max ∧ ∀ c ∈ cs, 128 ≤ c.toNat

/-- A varint that is too long: starts with `max` bytes that all have the continuation bit. -/
def Long (max : Nat) (cs : Bytes) : Prop := max ≤ cs.length ∧ ∀ c ∈ cs.take max, 128 ≤ c.toNat

instance (m cs) : Decidable (Cut m cs) := by unfold Cut; infer_instance
instance (m cs) : Decidable (Long m cs) := by unfold Long; infer_instance

end Spec
