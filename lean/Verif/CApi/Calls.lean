import Verif.CApi.Mem
import Verif.Spec.Utf8

/-! # Model of /repo/c_bindings/types.rs, encoder.rs and decoder.rs -/

namespace CApi

open Rust (Cursor Std Out DecodingError)

/-- c_bindings/types.rs 35-55 (`repr(u8)`), polyglot.h 56-73. -/
inductive Kind where
  | None | Array | Map | Any | Bytes | String | Error | Bool | U8 | U16 | U32 | U64 | I32 | I64 | F32 | F64
  | Unknown
deriving DecidableEq, Repr

/-- polyglot.h 56-73: the numbers a C program passes (c_bindings/types.rs 35-55 has the same). -/
def Kind.value : Kind → Byte
  | .None => 0 | .Array => 1 | .Map => 2 | .Any => 3 | .Bytes => 4 | .String => 5
  | .Error => 6 | .Bool => 7 | .U8 => 8 | .U16 => 9 | .U32 => 10 | .U64 => 11
  | .I32 => 12 | .I64 => 13 | .F32 => 14 | .F64 => 15 | .Unknown => 16

/-- c_bindings/types.rs 57-79 `Kind::into`. -/
def Kind.into : Kind → Rust.Kind
  | .None => .None | .Array => .Array | .Map => .Map | .Any => .Any | .Bytes => .Bytes | .String => .String
  | .Error => .Error | .Bool => .Bool | .U8 => .U8 | .U16 => .U16 | .U32 => .U32 | .U64 => .U64
  | .I32 => .I32 | .I64 => .I64 | .F32 => .F32 | .F64 => .F64 | .Unknown => .Unknown

/-- c_bindings/types.rs 27-33 `Status::check_not_null`. -/
def check_not_null (status : Ptr) : C Unit := if status = 0 then C.abort else pure ()

/-- `*status = s`. -/
def setStatus (status : Ptr) (s : Status) : C Unit := do
  match ← load status with
  | .status _ => store status (.status s)
  | _ => C.ub

/-- `(*encoder).cursor`. -/
def encoderCursor (encoder : Ptr) : C Cursor := do
  match ← load encoder with
  | .encoder c => pure c
  | _ => C.ub

/-- `(*decoder).cursor`. -/
def decoderCursor (decoder : Ptr) : C Cursor := do
  match ← load decoder with
  | .decoder c => pure c
  | _ => C.ub

/-! ## encoder.rs -/

/-- c_bindings/encoder.rs 33-43. -/
def new_encoder (status : Ptr) : C Ptr := do
  check_not_null status
  setStatus status .Pass
  alloc (.encoder ⟨[], 0⟩)

/-- c_bindings/encoder.rs 46-59: does not set the status when it succeeds. -/
def encoder_size (status encoder : Ptr) : C (BitVec 32) := do
  check_not_null status
  if encoder = 0 then
    setStatus status .NullPointer
    return 0
  let c ← encoderCursor encoder
  return BitVec.ofNat 32 c.vec.length

/-- c_bindings/encoder.rs 62-88.  `buffer.write(src)` copies `min(buffer.len(), src.len())` bytes and does not
fail. -/
def encoder_buffer (status encoder buffer_pointer : Ptr) (buffer_size : BitVec 32) : C Unit := do
  check_not_null status
  if encoder = 0 ∨ buffer_pointer = 0 then
    setStatus status .NullPointer
    return ()
  let c ← encoderCursor encoder
  if buffer_size < BitVec.ofNat 32 c.vec.length then
    setStatus status .Fail
    return ()
  let buffer ← rawSlice buffer_pointer buffer_size.toNat
  let n := min buffer.length c.vec.length
  if n ≠ 0 then
    match ← load buffer_pointer with
    | .block d => store buffer_pointer (.block (c.vec.take n ++ d.drop n))
    | _ => C.ub
  setStatus status .Pass

/-- c_bindings/encoder.rs 91-97. -/
def free_encoder (encoder : Ptr) : C Unit := do
  if encoder ≠ 0 then
    let _ ← encoderCursor encoder
    release encoder

/-- The body shared by all `polyglot_encode_*` functions after their null checks:
`match (*encoder).cursor.encode_xxx(..) { Ok(_) => *status = Pass, Err(_) => *status = Fail }`. -/
def encodeCall (status encoder : Ptr) (call : Rust.Enc) : C Unit := do
  let c ← encoderCursor encoder
  match call c with
  | (.ok (), c) =>
    store encoder (.encoder c)
    setStatus status .Pass
  | (.err _, c) =>
    store encoder (.encoder c)
    setStatus status .Fail
  | (.panic, _) => C.abort

/-- The text of all `polyglot_encode_*` functions that take no pointer argument:
null check of status and encoder, then the call. -/
def encodeScalar (status encoder : Ptr) (call : Rust.Enc) : C Unit := do
  check_not_null status
  if encoder = 0 then
    setStatus status .NullPointer
    return ()
  encodeCall status encoder call

/-- c_bindings/encoder.rs 100-120. -/
def encode_none (status encoder : Ptr) : C Unit := encodeScalar status encoder Rust.encode_none
/-- c_bindings/encoder.rs 123-143. -/
def encode_array (status encoder : Ptr) (array_size : BitVec 32) (array_kind : Kind) : C Unit :=
  encodeScalar status encoder (Rust.encode_array array_size.toNat array_kind.into)
/-- c_bindings/encoder.rs 146-166. -/
def encode_map (status encoder : Ptr) (map_size : BitVec 32) (key_kind value_kind : Kind) : C Unit :=
  encodeScalar status encoder (Rust.encode_map map_size.toNat key_kind.into value_kind.into)

/-- c_bindings/encoder.rs 169-190. -/
def encode_bytes (status encoder buffer_pointer : Ptr) (buffer_size : BitVec 32) : C Unit := do
  check_not_null status
  if encoder = 0 ∨ buffer_pointer = 0 then
    setStatus status .NullPointer
    return ()
  let buffer ← rawSlice buffer_pointer buffer_size.toNat
  encodeCall status encoder (Rust.encode_bytes buffer)

/-- c_bindings/encoder.rs 193-220: the string pointer is not checked for null. -/
def encode_string (status encoder string_pointer : Ptr) : C Unit := do
  check_not_null status
  if encoder = 0 then
    setStatus status .NullPointer
    return ()
  let s ← cstr string_pointer
  if Spec.utf8 s then
    encodeCall status encoder (Rust.encode_string s)
  else
    setStatus status .Fail

/-- c_bindings/encoder.rs 223-250: the string pointer is not checked for null. -/
def encode_error (status encoder string_pointer : Ptr) : C Unit := do
  check_not_null status
  if encoder = 0 then
    setStatus status .NullPointer
    return ()
  let s ← cstr string_pointer
  if Spec.utf8 s then
    encodeCall status encoder (Rust.encode_error s)
  else
    setStatus status .Fail

/-- c_bindings/encoder.rs 253-273. -/
def encode_bool (status encoder : Ptr) (val : Bool) : C Unit := encodeScalar status encoder (Rust.encode_bool val)
/-- c_bindings/encoder.rs 276-296. -/
def encode_u8 (status encoder : Ptr) (val : BitVec 8) : C Unit := encodeScalar status encoder (Rust.encode_u8 val)
/-- c_bindings/encoder.rs 299-319. -/
def encode_u16 (status encoder : Ptr) (val : BitVec 16) : C Unit := encodeScalar status encoder (Rust.encode_u16 val)
/-- c_bindings/encoder.rs 322-342. -/
def encode_u32 (status encoder : Ptr) (val : BitVec 32) : C Unit := encodeScalar status encoder (Rust.encode_u32 val)
/-- c_bindings/encoder.rs 345-365. -/
def encode_u64 (status encoder : Ptr) (val : BitVec 64) : C Unit := encodeScalar status encoder (Rust.encode_u64 val)
/-- c_bindings/encoder.rs 368-388. -/
def encode_i32 (status encoder : Ptr) (val : BitVec 32) : C Unit := encodeScalar status encoder (Rust.encode_i32 val)
/-- c_bindings/encoder.rs 391-411. -/
def encode_i64 (status encoder : Ptr) (val : BitVec 64) : C Unit := encodeScalar status encoder (Rust.encode_i64 val)
/-- c_bindings/encoder.rs 414-434. -/
def encode_f32 (status encoder : Ptr) (val : BitVec 32) : C Unit := encodeScalar status encoder (Rust.encode_f32 val)
/-- c_bindings/encoder.rs 437-457. -/
def encode_f64 (status encoder : Ptr) (val : BitVec 64) : C Unit := encodeScalar status encoder (Rust.encode_f64 val)

/-! ## decoder.rs -/

/-- c_bindings/decoder.rs 33-54. -/
def new_decoder (status buffer_pointer : Ptr) (buffer_size : BitVec 32) : C Ptr := do
  check_not_null status
  if buffer_pointer = 0 then
    setStatus status .NullPointer
    return 0
  let buffer ← rawSlice buffer_pointer buffer_size.toNat
  setStatus status .Pass
  alloc (.decoder ⟨buffer, 0⟩)

/-- c_bindings/decoder.rs 57-63. -/
def free_decoder (decoder : Ptr) : C Unit := do
  if decoder ≠ 0 then
    let _ ← decoderCursor decoder
    release decoder

/-- `(*decoder).cursor.decode_xxx(..)`: the call moves the cursor inside the object. -/
def runDecoder {α : Type} (decoder : Ptr) (call : Rust.Dec α) : C (Option α) := do
  let c ← decoderCursor decoder
  match call c with
  | (.ok a, c) =>
    store decoder (.decoder c)
    return some a
  | (.err _, c) =>
    store decoder (.decoder c)
    return none
  | (.panic, _) => C.abort

/-- c_bindings/decoder.rs 66-76: no `return` after the null check, and the status is not set otherwise. -/
def decode_none (std : Std) (status decoder : Ptr) : C Bool := do
  check_not_null status
  if decoder = 0 then
    setStatus status .NullPointer
  match ← runDecoder decoder (Rust.decode_none std) with
  | some b => return b
  | none => C.ub

/-- The text of all `polyglot_decode_*` functions (but `decode_none`): null checks, the call, then
`Ok(value) => { *status = Pass; .. }`, `Err(_) => { *status = Fail; zero }`. -/
def decodeCall {α β : Type} (status decoder : Ptr) (zero : β) (call : Rust.Dec α) (ok : α → C β) : C β := do
  check_not_null status
  if decoder = 0 then
    setStatus status .NullPointer
    return zero
  match ← runDecoder decoder call with
  | some a => ok a
  | none =>
    setStatus status .Fail
    return zero

/-- `Ok(value) => { *status = Status::Pass; value }`. -/
def pass {α : Type} (status : Ptr) (a : α) : C α := do
  setStatus status .Pass
  return a

/-- c_bindings/decoder.rs 79-105; `size as u32`. -/
def decode_array (std : Std) (status decoder : Ptr) (array_kind : Kind) : C (BitVec 32) :=
  decodeCall status decoder 0 (Rust.decode_array std array_kind.into) fun size => pass status (BitVec.ofNat 32 size)

/-- c_bindings/decoder.rs 108-138. -/
def decode_map (std : Std) (status decoder : Ptr) (key_kind value_kind : Kind) : C (BitVec 32) :=
  decodeCall status decoder 0 (Rust.decode_map std key_kind.into value_kind.into) fun size =>
    pass status (BitVec.ofNat 32 size)

/-- c_bindings/decoder.rs 141-166: an empty boxed slice owns no memory, its pointer is dangling. -/
def decode_bytes (std : Std) (status decoder : Ptr) : C Ptr :=
  decodeCall status decoder 0 (Rust.decode_bytes std) fun value => do
    setStatus status .Pass
    let data ← if value.length = 0 then pure dangling else alloc (.block value)
    alloc (.buffer data (BitVec.ofNat 32 value.length))

/-- c_bindings/decoder.rs 169-179: `Box::from_raw(value)` with `value: *mut u8` is a `Box<u8>`, which is
deallocated with size 1. -/
def free_decode_bytes (al : Allocator) (buffer : Ptr) : C Unit := do
  if buffer ≠ 0 then
    match ← load buffer with
    | .buffer data length =>
      let _ ← rawSlice data length.toNat
      dealloc al data 1
      release buffer
    | _ => C.ub

/-- c_bindings/decoder.rs 182-215 and 227-257: `CString::new` fails on an interior zero byte. -/
def newCString (status : Ptr) (value : Bytes) : C Ptr := do
  if (0 : Byte) ∈ value then
    setStatus status .Fail
    return 0
  else
    setStatus status .Pass
    alloc (.block (value ++ [0]))

/-- c_bindings/decoder.rs 182-215. -/
def decode_string (std : Std) (status decoder : Ptr) : C Ptr :=
  decodeCall status decoder 0 (Rust.decode_string std) (newCString status)

/-- c_bindings/decoder.rs 218-224: `CString::from_raw` finds the length by looking for the zero byte. -/
def free_decode_string (al : Allocator) (c_string : Ptr) : C Unit := do
  if c_string ≠ 0 then
    let s ← cstr c_string
    dealloc al c_string (s.length + 1)

/-- c_bindings/decoder.rs 227-257. -/
def decode_error (std : Std) (status decoder : Ptr) : C Ptr :=
  decodeCall status decoder 0 (Rust.decode_error std) (newCString status)

/-- c_bindings/decoder.rs 260-266. -/
def free_decode_error (al : Allocator) (c_string : Ptr) : C Unit := free_decode_string al c_string

/-- c_bindings/decoder.rs 269-291. -/
def decode_bool (std : Std) (status decoder : Ptr) : C Bool :=
  decodeCall status decoder false (Rust.decode_bool std) (pass status)
/-- c_bindings/decoder.rs 294-316. -/
def decode_u8 (std : Std) (status decoder : Ptr) : C (BitVec 8) :=
  decodeCall status decoder 0 (Rust.decode_u8 std) (pass status)
/-- c_bindings/decoder.rs 319-341. -/
def decode_u16 (std : Std) (status decoder : Ptr) : C (BitVec 16) :=
  decodeCall status decoder 0 (Rust.decode_u16 std) (pass status)
/-- c_bindings/decoder.rs 344-366. -/
def decode_u32 (std : Std) (status decoder : Ptr) : C (BitVec 32) :=
  decodeCall status decoder 0 (Rust.decode_u32 std) (pass status)
/-- c_bindings/decoder.rs 369-391. -/
def decode_u64 (std : Std) (status decoder : Ptr) : C (BitVec 64) :=
  decodeCall status decoder 0 (Rust.decode_u64 std) (pass status)
/-- c_bindings/decoder.rs 394-416. -/
def decode_i32 (std : Std) (status decoder : Ptr) : C (BitVec 32) :=
  decodeCall status decoder 0 (Rust.decode_i32 std) (pass status)
/-- c_bindings/decoder.rs 419-441. -/
def decode_i64 (std : Std) (status decoder : Ptr) : C (BitVec 64) :=
  decodeCall status decoder 0 (Rust.decode_i64 std) (pass status)
/-- c_bindings/decoder.rs 444-466. -/
def decode_f32 (std : Std) (status decoder : Ptr) : C (BitVec 32) :=
  decodeCall status decoder 0 (Rust.decode_f32 std) (pass status)
/-- c_bindings/decoder.rs 469-491. -/
def decode_f64 (std : Std) (status decoder : Ptr) : C (BitVec 64) :=
  decodeCall status decoder 0 (Rust.decode_f64 std) (pass status)

/-! ## All calls -/

/-- A return value. -/
inductive Val where
  | unit | bool (b : Bool) | u8 (v : BitVec 8) | u16 (v : BitVec 16) | u32 (v : BitVec 32) | u64 (v : BitVec 64)
  | i32 (v : BitVec 32) | i64 (v : BitVec 64) | f32 (v : BitVec 32) | f64 (v : BitVec 64) | ptr (p : Ptr)
deriving DecidableEq, Repr

/-- A call of one of the functions declared in polyglot.h, with its arguments. -/
inductive Call where
  | new_encoder (status : Ptr)
  | encoder_size (status encoder : Ptr)
  | encoder_buffer (status encoder buffer : Ptr) (size : BitVec 32)
  | free_encoder (encoder : Ptr)
  | encode_none (status encoder : Ptr)
  | encode_array (status encoder : Ptr) (size : BitVec 32) (kind : Kind)
  | encode_map (status encoder : Ptr) (size : BitVec 32) (keyKind valueKind : Kind)
  | encode_bytes (status encoder buffer : Ptr) (size : BitVec 32)
  | encode_string (status encoder string : Ptr)
  | encode_error (status encoder string : Ptr)
  | encode_bool (status encoder : Ptr) (v : Bool)
  | encode_u8 (status encoder : Ptr) (v : BitVec 8)
  | encode_u16 (status encoder : Ptr) (v : BitVec 16)
  | encode_u32 (status encoder : Ptr) (v : BitVec 32)
  | encode_u64 (status encoder : Ptr) (v : BitVec 64)
  | encode_i32 (status encoder : Ptr) (v : BitVec 32)
  | encode_i64 (status encoder : Ptr) (v : BitVec 64)
  | encode_f32 (status encoder : Ptr) (v : BitVec 32)
  | encode_f64 (status encoder : Ptr) (v : BitVec 64)
  | new_decoder (status buffer : Ptr) (size : BitVec 32)
  | free_decoder (decoder : Ptr)
  | decode_none (status decoder : Ptr)
  | decode_array (status decoder : Ptr) (kind : Kind)
  | decode_map (status decoder : Ptr) (keyKind valueKind : Kind)
  | decode_bytes (status decoder : Ptr)
  | free_decode_bytes (buffer : Ptr)
  | decode_string (status decoder : Ptr)
  | free_decode_string (string : Ptr)
  | decode_error (status decoder : Ptr)
  | free_decode_error (string : Ptr)
  | decode_bool (status decoder : Ptr)
  | decode_u8 (status decoder : Ptr)
  | decode_u16 (status decoder : Ptr)
  | decode_u32 (status decoder : Ptr)
  | decode_u64 (status decoder : Ptr)
  | decode_i32 (status decoder : Ptr)
  | decode_i64 (status decoder : Ptr)
  | decode_f32 (status decoder : Ptr)
  | decode_f64 (status decoder : Ptr)

/-- Apply a function to a returned value. -/
def ret {α : Type} (f : α → Val) (x : C α) : C Val := do return f (← x)

/-- Run a call. -/
def run (std : Std) (al : Allocator) : Call → C Val
  | .new_encoder st => ret .ptr (new_encoder st)
  | .encoder_size st e => ret .u32 (encoder_size st e)
  | .encoder_buffer st e p n => ret (fun _ => .unit) (encoder_buffer st e p n)
  | .free_encoder e => ret (fun _ => .unit) (free_encoder e)
  | .encode_none st e => ret (fun _ => .unit) (encode_none st e)
  | .encode_array st e n k => ret (fun _ => .unit) (encode_array st e n k)
  | .encode_map st e n k v => ret (fun _ => .unit) (encode_map st e n k v)
  | .encode_bytes st e p n => ret (fun _ => .unit) (encode_bytes st e p n)
  | .encode_string st e p => ret (fun _ => .unit) (encode_string st e p)
  | .encode_error st e p => ret (fun _ => .unit) (encode_error st e p)
  | .encode_bool st e v => ret (fun _ => .unit) (encode_bool st e v)
  | .encode_u8 st e v => ret (fun _ => .unit) (encode_u8 st e v)
  | .encode_u16 st e v => ret (fun _ => .unit) (encode_u16 st e v)
  | .encode_u32 st e v => ret (fun _ => .unit) (encode_u32 st e v)
  | .encode_u64 st e v => ret (fun _ => .unit) (encode_u64 st e v)
  | .encode_i32 st e v => ret (fun _ => .unit) (encode_i32 st e v)
  | .encode_i64 st e v => ret (fun _ => .unit) (encode_i64 st e v)
  | .encode_f32 st e v => ret (fun _ => .unit) (encode_f32 st e v)
  | .encode_f64 st e v => ret (fun _ => .unit) (encode_f64 st e v)
  | .new_decoder st p n => ret .ptr (new_decoder st p n)
  | .free_decoder d => ret (fun _ => .unit) (free_decoder d)
  | .decode_none st d => ret .bool (decode_none std st d)
  | .decode_array st d k => ret .u32 (decode_array std st d k)
  | .decode_map st d k v => ret .u32 (decode_map std st d k v)
  | .decode_bytes st d => ret .ptr (decode_bytes std st d)
  | .free_decode_bytes b => ret (fun _ => .unit) (free_decode_bytes al b)
  | .decode_string st d => ret .ptr (decode_string std st d)
  | .free_decode_string s => ret (fun _ => .unit) (free_decode_string al s)
  | .decode_error st d => ret .ptr (decode_error std st d)
  | .free_decode_error s => ret (fun _ => .unit) (free_decode_error al s)
  | .decode_bool st d => ret .bool (decode_bool std st d)
  | .decode_u8 st d => ret .u8 (decode_u8 std st d)
  | .decode_u16 st d => ret .u16 (decode_u16 std st d)
  | .decode_u32 st d => ret .u32 (decode_u32 std st d)
  | .decode_u64 st d => ret .u64 (decode_u64 std st d)
  | .decode_i32 st d => ret .i32 (decode_i32 std st d)
  | .decode_i64 st d => ret .i64 (decode_i64 std st d)
  | .decode_f32 st d => ret .f32 (decode_f32 std st d)
  | .decode_f64 st d => ret .f64 (decode_f64 std st d)

end CApi
