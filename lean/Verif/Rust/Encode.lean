import Verif.Rust.Std
import Verif.BitFacts

/-! # Model of /repo/kind.rs and /repo/encoder.rs -/

namespace Rust

/-- kind.rs 17-36. -/
inductive Kind where
  | None | Array | Map | Any | Bytes | String | Error | Bool | U8 | U16 | U32 | U64 | I32 | I64 | F32 | F64
  | Unknown
deriving DecidableEq, Repr

/-- kind.rs 17-36: `kind as u8`. -/
def Kind.toU8 : Kind → Byte
  | .None => 0x00 | .Array => 0x01 | .Map => 0x02 | .Any => 0x03 | .Bytes => 0x04 | .String => 0x05
  | .Error => 0x06 | .Bool => 0x07 | .U8 => 0x08 | .U16 => 0x09 | .U32 => 0x0a | .U64 => 0x0b
  | .I32 => 0x0c | .I64 => 0x0d | .F32 => 0x0e | .F64 => 0x0f | .Unknown => 0x10

/-- kind.rs 38-61: `impl From<u8> for Kind`. -/
def Kind.ofU8 (orig : Byte) : Kind :=
  match orig.toNat with
  | 0x00 => .None | 0x01 => .Array | 0x02 => .Map | 0x03 => .Any | 0x04 => .Bytes | 0x05 => .String
  | 0x06 => .Error | 0x07 => .Bool | 0x08 => .U8 | 0x09 => .U16 | 0x0a => .U32 | 0x0b => .U64
  | 0x0c => .I32 | 0x0d => .I64 | 0x0e => .F32 | 0x0f => .F64 | _ => .Unknown

/-- encoder.rs 26-29. -/
inductive EncodingError where
  | WriteFailed
deriving DecidableEq, Repr

/-- encoder.rs 24. -/
def CONTINUATION : Byte := 0x80

abbrev Enc := Rs EncodingError Unit

/-- `self.write_u8(b)?`. -/
def write_u8 (b : Byte) : Enc := write_all [b]

/-- encoder.rs 98-101. -/
def encode_none : Enc := write_u8 Kind.None.toU8

/-- encoder.rs 170-174 (the loop, the same text in all five integer encoders):
`while val >= CONTINUATION { self.write_u8(val as u8 | CONTINUATION)?; val >>= 7; } self.write_u8(val as u8)?`.
The loop as recursion; it terminates because the value shrinks. -/
def varintLoop {w : Nat} (val : BitVec w) (hw : 8 ≤ w) : Enc :=
  if h : val ≥ CONTINUATION.setWidth w then do
    write_u8 (val.setWidth 8 ||| CONTINUATION)
    varintLoop (val >>> 7) hw
  else
    write_u8 (val.setWidth 8)
termination_by val.toNat
decreasing_by
  have h1 : 128 ≤ val.toNat := by
    have := BitVec.le_def.mp h
    rwa [CONTINUATION, BitVec.toNat_setWidth, show BitVec.toNat (0x80 : Byte) = 128 from rfl, Nat.mod_eq_of_lt] at this
    calc 128 < 2 ^ 8 := by decide
      _ ≤ 2 ^ w := Nat.pow_le_pow_right (by decide) hw
  rw [toNat_shr7]
  omega

/-- encoder.rs 167-176. -/
def encode_u16 (val : BitVec 16) : Enc := do
  write_u8 Kind.U16.toU8
  varintLoop val (by decide)

/-- encoder.rs 178-187. -/
def encode_u32 (val : BitVec 32) : Enc := do
  write_u8 Kind.U32.toU8
  varintLoop val (by decide)

/-- encoder.rs 189-198. -/
def encode_u64 (val : BitVec 64) : Enc := do
  write_u8 Kind.U64.toU8
  varintLoop val (by decide)

/-- encoder.rs 103-107; `size as u32` truncates. -/
def encode_array (size : Nat) (val_kind : Kind) : Enc := do
  write_u8 Kind.Array.toU8
  write_u8 val_kind.toU8
  encode_u32 (BitVec.ofNat 32 size)

/-- encoder.rs 109-119. -/
def encode_map (size : Nat) (key_kind val_kind : Kind) : Enc := do
  write_u8 Kind.Map.toU8
  write_u8 key_kind.toU8
  write_u8 val_kind.toU8
  encode_u32 (BitVec.ofNat 32 size)

/-- encoder.rs 121-126. -/
def encode_bytes (val : _root_.Bytes) : Enc := do
  write_u8 Kind.Bytes.toU8
  encode_u32 (BitVec.ofNat 32 val.length)
  write_all val

/-- encoder.rs 128-134 (`encode_string`) and 136-142 (`encode_str`, the same). -/
def encode_string (val : _root_.Bytes) : Enc := do
  write_u8 Kind.String.toU8
  encode_u32 (BitVec.ofNat 32 val.length)
  write_all val

/-- encoder.rs 144-153; the error is given by its `to_string()`. -/
def encode_error (val : _root_.Bytes) : Enc := do
  write_u8 Kind.Error.toU8
  write_u8 Kind.String.toU8
  encode_u32 (BitVec.ofNat 32 val.length)
  write_all val

/-- encoder.rs 155-159. -/
def encode_bool (val : _root_.Bool) : Enc := do
  write_u8 Kind.Bool.toU8
  write_u8 (if val then 1 else 0)

/-- encoder.rs 161-165. -/
def encode_u8 (val : BitVec 8) : Enc := do
  write_u8 Kind.U8.toU8
  write_u8 val

/-- encoder.rs 200-216. -/
def encode_i32 (val : BitVec 32) : Enc := do
  write_u8 Kind.I32.toU8
  let cast_val := val <<< 1
  let cast_val := if val.slt 0 then ~~~cast_val else cast_val
  varintLoop cast_val (by decide)

/-- encoder.rs 218-234. -/
def encode_i64 (val : BitVec 64) : Enc := do
  write_u8 Kind.I64.toU8
  let cast_val := val <<< 1
  let cast_val := if val.slt 0 then ~~~cast_val else cast_val
  varintLoop cast_val (by decide)

/-- `byteorder` big-endian bytes of a 32-bit value. -/
def be4 (v : BitVec 32) : _root_.Bytes :=
  [(v >>> 24).setWidth 8, (v >>> 16).setWidth 8, (v >>> 8).setWidth 8, v.setWidth 8]

/-- `byteorder` big-endian bytes of a 64-bit value. -/
def be8 (v : BitVec 64) : _root_.Bytes :=
  [(v >>> 56).setWidth 8, (v >>> 48).setWidth 8, (v >>> 40).setWidth 8, (v >>> 32).setWidth 8,
   (v >>> 24).setWidth 8, (v >>> 16).setWidth 8, (v >>> 8).setWidth 8, v.setWidth 8]

/-- encoder.rs 236-240; floats are given by their bit patterns. -/
def encode_f32 (bits : BitVec 32) : Enc := do
  write_u8 Kind.F32.toU8
  write_all (be4 bits)

/-- encoder.rs 242-246. -/
def encode_f64 (bits : BitVec 64) : Enc := do
  write_u8 Kind.F64.toU8
  write_all (be8 bits)

/-- The encoder call that writes an item. -/
def encodeItem : Spec.Item → Enc
  | .nil => encode_none
  | .map size k v => encode_map size.toNat (Kind.ofU8 k) (Kind.ofU8 v)
  | .slice size k => encode_array size.toNat (Kind.ofU8 k)
  | .bytes v => encode_bytes v
  | .string v => encode_string v
  | .error m => encode_error m
  | .bool v => encode_bool v
  | .uint8 v => encode_u8 v
  | .uint16 v => encode_u16 v
  | .uint32 v => encode_u32 v
  | .uint64 v => encode_u64 v
  | .int32 v => encode_i32 v
  | .int64 v => encode_i64 v
  | .float32 v => encode_f32 v
  | .float64 v => encode_f64 v

/-- Several encoder calls, one after the other. -/
def encodeItems : List Spec.Item → Enc
  | [] => Rs.pure ()
  | i :: is => do
    encodeItem i
    encodeItems is

end Rust
