import Verif.Base

/-!
# Protobuf schemas and values of message types

A language-neutral description of what the three generators take as input (protoreflect descriptors) and
of the values a generated message type can hold.  Nothing here models polyglot code.
-/

namespace Gen

/-- `protoreflect.Kind` (google.golang.org/protobuf/reflect/protoreflect): all 18 kinds. -/
inductive PKind where
  | bool | enum | int32 | sint32 | uint32 | int64 | sint64 | uint64 | sfixed32 | fixed32 | float
  | sfixed64 | fixed64 | double | string | bytes | message | group
deriving DecidableEq, Repr

/-- `protoreflect.Cardinality` -/
inductive Card where
  | optional | required | repeated
deriving DecidableEq, Repr

/-- A `protoreflect.FieldDescriptor`.  `ref` is the index of the message type (kinds `message`, `group`) or
of the enum type (kind `enum`) the field refers to, and is ignored for other kinds.  The name of the
field is its position in the message. -/
inductive Field where
  /-- a singular field; whether it is `optional` or `required` -/
  | one (kind : PKind) (ref : Nat) (card : Bool)
  /-- a repeated field that is no map -/
  | many (kind : PKind) (ref : Nat)
  /-- `map<key, value>` -/
  | map (key value : PKind) (ref : Nat)
deriving DecidableEq, Repr

/-- `FieldDescriptor.Kind()`: a map is a repeated field of the synthesised entry message. -/
def Field.Kind : Field → PKind
  | .one k _ _ => k
  | .many k _ => k
  | .map .. => .message

/-- `FieldDescriptor.Cardinality()` -/
def Field.Cardinality : Field → Card
  | .one _ _ false => .optional
  | .one _ _ true => .required
  | .many .. => .repeated
  | .map .. => .repeated

/-- `FieldDescriptor.IsMap()` -/
def Field.IsMap : Field → Bool
  | .map .. => true
  | _ => false

/-- A set of message and enum types: the declared fields of each message type, in declaration order, and
the number of constants of each enum type. -/
structure Schema where
  messages : List (List Field)
  enums : List Nat
deriving DecidableEq, Repr

/-- The declared fields of a message type (none for an index that is no message type). -/
def Schema.fields (S : Schema) (m : Nat) : List Field := S.messages[m]?.getD []

/-- A value of a scalar field.  Floats by bit pattern, strings by their bytes, enum values by number. -/
inductive Scalar where
  | bool (v : Bool)
  | int32 (v : BitVec 32)
  | uint32 (v : BitVec 32)
  | int64 (v : BitVec 64)
  | uint64 (v : BitVec 64)
  | float32 (bits : BitVec 32)
  | float64 (bits : BitVec 64)
  | string (v : Bytes)
  | bytes (v : Bytes)
  | enum (v : BitVec 32)
deriving DecidableEq, Repr

/-- A value of a field.  `nil` is a nil message pointer, `msg` a message with the values of its declared
fields in declaration order, `slice` the elements of a repeated field (a nil slice is a slice without
elements: generated code cannot tell them apart), `nilMap` a nil map, `map keys values` a map with the entries
`keys[i] ↦ values[i]`, listed in the order in which the run at hand iterates over it. -/
inductive V where
  | scalar (s : Scalar)
  | nil
  | msg (fields : List V)
  | slice (elems : List V)
  | nilMap
  | map (keys : List Scalar) (values : List V)
deriving Repr

mutual
/-- Nesting depth of message values; a nil message counts as a message without fields. -/
def V.depth : V → Nat
  | .nil => 1
  | .msg vs => depths vs + 1
  | .slice vs => depths vs
  | .map _ vs => depths vs
  | _ => 0
def depths : List V → Nat
  | [] => 0
  | v :: vs => max v.depth (depths vs)
end

theorem depth_le_depths {v : V} {vs : List V} (h : v ∈ vs) : v.depth ≤ depths vs := by
  induction vs with
  | nil => cases h
  | cons w ws ih =>
    rw [depths]
    rcases List.mem_cons.mp h with rfl | h
    · omega
    · have := ih h; omega

/-- The scalar values a singular field of a kind can hold (`sint32`, `sfixed32` are `int32` and so on). -/
def Scalar.OfKind : PKind → Scalar → Prop
  | .bool, .bool _ => True
  | .enum, .enum _ => True
  | .int32, .int32 _ => True
  | .sint32, .int32 _ => True
  | .sfixed32, .int32 _ => True
  | .uint32, .uint32 _ => True
  | .fixed32, .uint32 _ => True
  | .int64, .int64 _ => True
  | .sint64, .int64 _ => True
  | .sfixed64, .int64 _ => True
  | .uint64, .uint64 _ => True
  | .fixed64, .uint64 _ => True
  | .float, .float32 _ => True
  | .double, .float64 _ => True
  | .string, .string _ => True
  | .bytes, .bytes _ => True
  | _, _ => False

mutual
/-- `v` is a value of the field `f`: types agree, collections have fewer than 2^32 elements, map keys are
distinct. -/
def V.OfField (S : Schema) : Field → V → Prop
  | .one k _ _, .scalar s => s.OfKind k
  | .one k _ _, .nil => k = .message
  | .one k m _, .msg vs => k = .message ∧ OfFields S (S.fields m) vs
  | .many k r, .slice vs => vs.length < 2 ^ 32 ∧ OfElems S (.one k r false) vs
  | .map .., .nilMap => True
  | .map kk k r, .map ks vs => ks.length = vs.length ∧ vs.length < 2 ^ 32 ∧ ks.Nodup ∧ (∀ s ∈ ks, s.OfKind kk) ∧
      OfElems S (.one k r false) vs
  | _, _ => False
/-- One value per declared field. -/
def OfFields (S : Schema) : List Field → List V → Prop
  | [], [] => True
  | f :: fs, v :: vs => v.OfField S f ∧ OfFields S fs vs
  | _, _ => False
/-- All values are values of the same field. -/
def OfElems (S : Schema) (f : Field) : List V → Prop
  | [] => True
  | v :: vs => v.OfField S f ∧ OfElems S f vs
end

end Gen
