import Verif.Rust.Encode

/-! # Model of /repo/decoder.rs -/

namespace Rust

/-- decoder.rs 24-43. -/
inductive DecodingError where
  | InvalidNone | InvalidArray | InvalidMap | InvalidBytes | InvalidString | InvalidError | InvalidBool
  | InvalidU8 | InvalidU16 | InvalidU32 | InvalidU64 | InvalidI32 | InvalidI64 | InvalidF32 | InvalidF64
  | InvalidEnum | InvalidStruct
deriving DecidableEq, Repr

open DecodingError

abbrev Dec (α : Type) := Rs DecodingError α

/-- `self.read_u8().ok().ok_or(e)?`. -/
def read_u8_or (std : Std) (e : DecodingError) : Dec Byte := Rs.ok_or (read_u8 std) e

/-- decoder.rs 53-55. -/
def VARINT_LEN16 : Nat := 3
def VARINT_LEN32 : Nat := 5
def VARINT_LEN64 : Nat := 10

/-- decoder.rs 80-88. -/
def decode_none (std : Std) : Dec Bool := fun c =>
  match read_u8 std c with
  | (.ok kind, c) =>
    if kind = Kind.None.toU8 then (.ok true, c)
    else (do back 1; return false : Dec Bool) c
  | (.err _, c) => (.ok false, c)
  | (.panic, c) => (.panic, c)

/-- decoder.rs 197-204 (the loop, the same text in `decode_u32` and `decode_u64`):
`for _ in 0..n { let byte = self.read_u8().ok().ok_or(e)?; if byte < CONTINUATION { return Ok(x | ((byte as _) << s)) };
x |= (byte as _ & (CONTINUATION as _ - 1)) << s; s += 7; }`.  `none`: the loop ran to its end. -/
def groups {w : Nat} (std : Std) (e : DecodingError) : Nat → BitVec w → Nat → Dec (Option (BitVec w))
  | 0, _, _ => return none
  | n + 1, x, s => do
    let byte ← read_u8_or std e
    if byte < CONTINUATION then
      let y ← shl (byte.setWidth w) s
      return some (x ||| y)
    else
      let y ← shl (byte.setWidth w &&& (CONTINUATION.setWidth w - 1)) s
      groups std e n (x ||| y) (s + 7)

/-- decoder.rs 191-208: the last error really is `InvalidU32`. -/
def decode_u16 (std : Std) : Dec (BitVec 16) := do
  let kind ← read_u8_or std InvalidU16
  if kind = Kind.U16.toU8 then
    if let some x ← groups std InvalidU16 VARINT_LEN16 0 0 then
      return x
  back 1
  Rs.throw InvalidU32

/-- decoder.rs 210-227. -/
def decode_u32 (std : Std) : Dec (BitVec 32) := do
  let kind ← read_u8_or std InvalidU32
  if kind = Kind.U32.toU8 then
    if let some x ← groups std InvalidU32 VARINT_LEN32 0 0 then
      return x
  back 1
  Rs.throw InvalidU32

/-- decoder.rs 229-246: the last error really is `InvalidU32`. -/
def decode_u64 (std : Std) : Dec (BitVec 64) := do
  let kind ← read_u8_or std InvalidU64
  if kind = Kind.U64.toU8 then
    if let some x ← groups std InvalidU64 VARINT_LEN64 0 0 then
      return x
  back 1
  Rs.throw InvalidU32

/-- decoder.rs 256-263, 280-287: `ux >> 1`, and if the low bit is set `x.wrapping_add(1).wrapping_neg()`. -/
def unzig {w : Nat} (ux : BitVec w) : BitVec w :=
  let x := ux >>> 1
  if ux &&& 1 ≠ 0 then -(x + 1) else x

/-- decoder.rs 248-270 (the loop is the one of `decode_u32`, with the value post-processed). -/
def decode_i32 (std : Std) : Dec (BitVec 32) := do
  let kind ← read_u8_or std InvalidI32
  if kind = Kind.I32.toU8 then
    if let some ux ← groups std InvalidI32 VARINT_LEN32 0 0 then
      return unzig ux
  back 1
  Rs.throw InvalidI32

/-- decoder.rs 272-294. -/
def decode_i64 (std : Std) : Dec (BitVec 64) := do
  let kind ← read_u8_or std InvalidI64
  if kind = Kind.I64.toU8 then
    if let some ux ← groups std InvalidI64 VARINT_LEN64 0 0 then
      return unzig ux
  back 1
  Rs.throw InvalidI64

/-- decoder.rs 90-101: steps back one byte after reading two, and reports `InvalidU32`. -/
def decode_array (std : Std) (val_kind : Kind) : Dec Nat := do
  let kind ← read_u8_or std InvalidArray
  let defined_val_kind ← read_u8_or std InvalidArray
  if kind = Kind.Array.toU8 ∧ val_kind.toU8 = defined_val_kind then
    let val ← decode_u32 std
    return val.toNat
  back 1
  Rs.throw InvalidU32

/-- decoder.rs 103-118: steps back one byte after reading three. -/
def decode_map (std : Std) (key_kind val_kind : Kind) : Dec Nat := do
  let kind ← read_u8_or std InvalidMap
  let defined_key_kind ← read_u8_or std InvalidMap
  let defined_val_kind ← read_u8_or std InvalidMap
  if kind = Kind.Map.toU8 ∧ key_kind.toU8 = defined_key_kind ∧ val_kind.toU8 = defined_val_kind then
    let val ← decode_u32 std
    return val.toNat
  back 1
  Rs.throw InvalidMap

/-- decoder.rs 120-132.  Simplification: `vec![0u8; size]` always succeeds. -/
def decode_bytes (std : Std) : Dec _root_.Bytes := do
  let kind ← read_u8_or std InvalidBytes
  if kind = Kind.Bytes.toU8 then
    let size ← decode_u32 std
    let buf ← Rs.ok_or (read_exact std size.toNat) InvalidBytes
    return buf
  back 1
  Rs.throw InvalidBytes

/-- decoder.rs 134-151. -/
def decode_string (std : Std) : Dec _root_.Bytes := do
  let kind ← read_u8_or std InvalidString
  if kind = Kind.String.toU8 then
    let size ← decode_u32 std
    let str_buf ← Rs.ok_or (read_exact std size.toNat) InvalidString
    if Spec.utf8 str_buf then
      return str_buf
    else
      Rs.throw InvalidString
  else
    back 1
    Rs.throw InvalidString

/-- decoder.rs 153-170. -/
def decode_error (std : Std) : Dec _root_.Bytes := do
  let kind ← read_u8_or std InvalidError
  let nested_kind ← read_u8_or std InvalidError
  if kind = Kind.Error.toU8 ∧ nested_kind = Kind.String.toU8 then
    let size ← decode_u32 std
    let str_buf ← Rs.ok_or (read_exact std size.toNat) InvalidError
    if Spec.utf8 str_buf then
      return str_buf
    else
      Rs.throw InvalidError
  else
    back 2
    Rs.throw InvalidError

/-- decoder.rs 172-180. -/
def decode_bool (std : Std) : Dec _root_.Bool := do
  let kind ← read_u8_or std InvalidBool
  if kind = Kind.Bool.toU8 then
    let val ← read_u8_or std InvalidBool
    return val = 1
  back 1
  Rs.throw InvalidBool

/-- decoder.rs 182-189. -/
def decode_u8 (std : Std) : Dec (BitVec 8) := do
  let kind ← read_u8_or std InvalidU8
  if kind = Kind.U8.toU8 then
    let val ← read_u8_or std InvalidU8
    return val
  back 1
  Rs.throw InvalidU8

/-- decoder.rs 296-306; `read_f32::<BigEndian>` is `read_exact` of four bytes. -/
def decode_f32 (std : Std) : Dec (BitVec 32) := do
  let kind ← read_u8_or std InvalidF32
  if kind = Kind.F32.toU8 then
    let bs ← Rs.ok_or (read_exact std 4) InvalidF32
    return BitVec.ofNat 32 (Spec.fromBigEndian bs)
  back 1
  Rs.throw InvalidF32

/-- decoder.rs 308-318. -/
def decode_f64 (std : Std) : Dec (BitVec 64) := do
  let kind ← read_u8_or std InvalidF64
  if kind = Kind.F64.toU8 then
    let bs ← Rs.ok_or (read_exact std 8) InvalidF64
    return BitVec.ofNat 64 (Spec.fromBigEndian bs)
  back 1
  Rs.throw InvalidF64

/-- One decoder call. -/
inductive Req where
  | none | array (kind : Kind) | map (keyKind valueKind : Kind) | bytes | string | error | bool
  | u8 | u16 | u32 | u64 | i32 | i64 | f32 | f64
deriving DecidableEq, Repr

/-- Run one decoder call; the value as an item.  `decode_none` reports a missing `None` by returning
`false`, which is rendered as the error `InvalidNone` here. -/
def readItem (std : Std) : Req → Dec Spec.Item
  | .none => do if ← decode_none std then return .nil else Rs.throw InvalidNone
  | .array k => do return .slice (BitVec.ofNat 32 (← decode_array std k)) k.toU8
  | .map k v => do return .map (BitVec.ofNat 32 (← decode_map std k v)) k.toU8 v.toU8
  | .bytes => do return .bytes (← decode_bytes std)
  | .string => do return .string (← decode_string std)
  | .error => do return .error (← decode_error std)
  | .bool => do return .bool (← decode_bool std)
  | .u8 => do return .uint8 (← decode_u8 std)
  | .u16 => do return .uint16 (← decode_u16 std)
  | .u32 => do return .uint32 (← decode_u32 std)
  | .u64 => do return .uint64 (← decode_u64 std)
  | .i32 => do return .int32 (← decode_i32 std)
  | .i64 => do return .int64 (← decode_i64 std)
  | .f32 => do return .float32 (← decode_f32 std)
  | .f64 => do return .float64 (← decode_f64 std)

/-- Several decoder calls, stopping at the first error. -/
def readAll (std : Std) : List Req → Dec (List Spec.Item)
  | [] => return []
  | q :: qs => do
    let i ← readItem std q
    let is ← readAll std qs
    return i :: is

end Rust
