import Verif.Base

/-!
# The polyglot wire format: an independent specification

This file is the yardstick.  It uses no definition of any model.  It says what an *item* of a
polyglot message is, how it looks on the wire, and how a base-128 varint is read from arbitrary
bytes.  (Kind numbers: /repo/v2/encode.go 24-41, /repo/encode.go 27-44, /repo/kind.rs 17-37,
/repo/kind.ts 17-34, /repo/polyglot.h 56-73.)
-/

namespace Spec

/-- One item of a message, as written by one call of an encoder method.
Floats are given by their IEEE-754 bit pattern, strings and error texts by their bytes. -/
inductive Item where
  | nil
  | map (size : BitVec 32) (keyKind valueKind : Byte)
  | slice (size : BitVec 32) (kind : Byte)
  | bytes (value : Bytes)
  | string (value : Bytes)
  | error (message : Bytes)
  | bool (value : Bool)
  | uint8 (value : BitVec 8)
  | uint16 (value : BitVec 16)
  | uint32 (value : BitVec 32)
  | uint64 (value : BitVec 64)
  | int32 (value : BitVec 32)
  | int64 (value : BitVec 64)
  | float32 (bits : BitVec 32)
  | float64 (bits : BitVec 64)
deriving DecidableEq, Repr

/-- Wire kind numbers. -/
def kNil : Byte := 0
def kSlice : Byte := 1
def kMap : Byte := 2
def kAny : Byte := 3
def kBytes : Byte := 4
def kString : Byte := 5
def kError : Byte := 6
def kBool : Byte := 7
def kUint8 : Byte := 8
def kUint16 : Byte := 9
def kUint32 : Byte := 10
def kUint64 : Byte := 11
def kInt32 : Byte := 12
def kInt64 : Byte := 13
def kFloat32 : Byte := 14
def kFloat64 : Byte := 15

/-- Minimal little-endian base-128 encoding of a natural number: 7 bits per byte, the top bit is
set on every byte but the last. -/
def leb128 (n : Nat) : Bytes :=
  if n < 128 then [BitVec.ofNat 8 n] else BitVec.ofNat 8 (128 + n % 128) :: leb128 (n / 128)
termination_by n
decreasing_by omega

/-- Zig-zag mapping of a signed integer to a natural number: 0, -1, 1, -2, 2, ... ↦ 0, 1, 2, 3, 4, ... -/
def zigzag (v : Int) : Nat := if 0 ≤ v then (2 * v).toNat else (-2 * v - 1).toNat

/-- The `k` low-order bytes of `n`, most significant first. -/
def bigEndian : (k : Nat) → (n : Nat) → Bytes
  | 0, _ => []
  | k + 1, n => BitVec.ofNat 8 (n / 256 ^ k) :: bigEndian k n

/-- The number denoted by bytes, most significant first. -/
def fromBigEndian (bs : Bytes) : Nat := bs.foldl (fun n c => n * 256 + c.toNat) 0

/-- A tagged unsigned 32-bit number, as used for sizes and lengths. -/
def size32 (n : Nat) : Bytes := kUint32 :: leb128 n

/-- The wire encoding of an item. -/
def wire : Item → Bytes
  | .nil => [kNil]
  | .map size k v => kMap :: k :: v :: size32 size.toNat
  | .slice size k => kSlice :: k :: size32 size.toNat
  | .bytes v => kBytes :: size32 v.length ++ v
  | .string v => kString :: size32 v.length ++ v
  | .error m => kError :: kString :: size32 m.length ++ m
  | .bool v => [kBool, if v then 1 else 0]
  | .uint8 v => [kUint8, v]
  | .uint16 v => kUint16 :: leb128 v.toNat
  | .uint32 v => kUint32 :: leb128 v.toNat
  | .uint64 v => kUint64 :: leb128 v.toNat
  | .int32 v => kInt32 :: leb128 (zigzag v.toInt)
  | .int64 v => kInt64 :: leb128 (zigzag v.toInt)
  | .float32 v => kFloat32 :: bigEndian 4 v.toNat
  | .float64 v => kFloat64 :: bigEndian 8 v.toNat

/-- The wire encoding of a message: its items one after the other. -/
def wireAll (items : List Item) : Bytes := items.flatMap wire

/-- The payload lengths the 32-bit length field can express. -/
def Item.Fits : Item → Prop
  | .bytes v => v.length < 2 ^ 32
  | .string v => v.length < 2 ^ 32
  | .error m => m.length < 2 ^ 32
  | _ => True

instance : DecidablePred Item.Fits := fun i => by
  cases i <;> simp only [Item.Fits] <;> infer_instance

/-- Outcome of reading a varint of at most `max` bytes from the front of arbitrary bytes. -/
inductive VRes where
  /-- a complete varint with this (unbounded) value; the bytes after it -/
  | done (value : Nat) (rest : Bytes)
  /-- the input ended before a byte without continuation bit -/
  | truncated
  /-- `max` bytes, all with the continuation bit -/
  | tooLong
deriving DecidableEq, Repr

/-- Read a varint of at most `max` bytes: the value is the sum of the 7-bit groups, least
significant first. -/
def readVarint : (max : Nat) → Bytes → VRes
  | 0, _ => .tooLong
  | _ + 1, [] => .truncated
  | m + 1, c :: bs =>
    if c.toNat < 128 then .done c.toNat bs
    else
      match readVarint m bs with
      | .done n rest => .done (c.toNat % 128 + 128 * n) rest
      | .truncated => .truncated
      | .tooLong => .tooLong

/-- Inverse of `zigzag`. -/
def unzigzag (n : Nat) : Int := if n % 2 = 0 then (n / 2 : Nat) else - ((n / 2 : Nat) : Int) - 1

end Spec
