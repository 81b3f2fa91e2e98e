import Verif.Gen.Schema
import Verif.Spec.Wire

/-!
# The layout of an encoded message: an independent specification

No definition of any model is used here.
-/

namespace Gen

open Spec

/-- The item a scalar is written as; an enum value is written as an unsigned 32-bit number. -/
def Scalar.item : Scalar → Item
  | .bool v => .bool v
  | .int32 v => .int32 v
  | .uint32 v => .uint32 v
  | .int64 v => .int64 v
  | .uint64 v => .uint64 v
  | .float32 v => .float32 v
  | .float64 v => .float64 v
  | .string v => .string v
  | .bytes v => .bytes v
  | .enum v => .uint32 v

/-- The wire kind announced in the header of a repeated field or map for elements of a kind; messages are
announced as `any`. -/
def PKind.announced : PKind → Byte
  | .bool => kBool
  | .enum => kUint32
  | .int32 => kInt32
  | .sint32 => kInt32
  | .sfixed32 => kInt32
  | .uint32 => kUint32
  | .fixed32 => kUint32
  | .int64 => kInt64
  | .sint64 => kInt64
  | .sfixed64 => kInt64
  | .uint64 => kUint64
  | .fixed64 => kUint64
  | .float => kFloat32
  | .double => kFloat64
  | .string => kString
  | .bytes => kBytes
  | .message => kAny
  | .group => kAny

/-- The three groups of fields of a message. -/
inductive Group where
  | scalars | repeateds | nesteds
deriving DecidableEq, Repr

/-- Singular messages and maps are `nesteds`. -/
def Field.group : Field → Group
  | .one .message _ _ => .nesteds
  | .one .. => .scalars
  | .many .. => .repeateds
  | .map .. => .nesteds

mutual
/-- The items a field with a value is written as.  A nil message is a single `nil`; a message is its scalar
fields, then its repeated fields, then its messages and maps, each group in declaration order.  A repeated field is
a header with the number and kind of its elements, then the elements.  A map is a header, then key and value of each
entry; a nil map is written as an empty one. -/
def V.items (S : Schema) : Field → V → List Item
  | .one .., .scalar s => [s.item]
  | .one .., .nil => [.nil]
  | .one _ m _, .msg vs => itemsOf S .scalars (S.fields m) vs ++ itemsOf S .repeateds (S.fields m) vs ++
      itemsOf S .nesteds (S.fields m) vs
  | .many k r, .slice vs => .slice (BitVec.ofNat 32 vs.length) k.announced :: itemsE S (.one k r false) vs
  | .map kk k _, .nilMap => [.map 0 kk.announced k.announced]
  | .map kk k r, .map ks vs => .map (BitVec.ofNat 32 vs.length) kk.announced k.announced ::
      itemsM S (.one k r false) ks vs
  | _, _ => []
termination_by structural _ v => v
/-- The fields of one group, in declaration order. -/
def itemsOf (S : Schema) (g : Group) : List Field → List V → List Item
  | f :: fs, v :: vs => (if f.group = g then v.items S f else []) ++ itemsOf S g fs vs
  | _, _ => []
termination_by structural _ vs => vs
/-- The elements of a repeated field. -/
def itemsE (S : Schema) (f : Field) : List V → List Item
  | [] => []
  | v :: vs => v.items S f ++ itemsE S f vs
termination_by structural vs => vs
/-- The entries of a map. -/
def itemsM (S : Schema) (f : Field) : List Scalar → List V → List Item
  | k :: ks, v :: vs => k.item :: v.items S f ++ itemsM S f ks vs
  | _, _ => []
termination_by structural _ vs => vs
end

/-- A message of type `m` (or nil) is written as these items. -/
def Schema.layout (S : Schema) (m : Nat) (x : V) : List Item := x.items S (.one .message m false)

end Gen
