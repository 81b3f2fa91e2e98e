import Verif.TS.Encode
import Verif.Spec.Utf8

/-!
# Model of the TypeScript decoder (/repo/decoder.ts)

Simplifications: as for the encoder; results of the integer methods are integers; strings are represented by
their UTF-8 bytes, and what `TextDecoder` does is a parameter.
-/

namespace TS

/-- The platform: what `new TextDecoder().decode(bs)` returns (as UTF-8).  On well-formed input it returns
the input, except that it drops a leading byte order mark; on malformed input it inserts U+FFFD somewhere,
about which nothing is assumed. -/
structure Platform where
  textDecode : Bytes → Bytes
  valid : ∀ bs, Spec.utf8 bs = true → textDecode bs = if [0xEF, 0xBB, 0xBF] <+: bs then bs.drop 3 else bs

/-- decoder.ts 139-144. -/
structure Decoder where
  buf : View
  pos : Nat
deriving DecidableEq, Repr

abbrev D := Js Decoder

/-- `new Decoder(buf)`. -/
def newDecoder (buf : View) : Decoder := ⟨buf, 0⟩

/-- decoder.ts 146-148. -/
def peek : D (Option Byte) := fun d => (.ok (d.buf.get? d.pos), d)

def skip (n : Nat) : D Unit := Js.modify fun d => { d with pos := d.pos + n }

/-- decoder.ts 150-154. -/
def pop : D (Option Byte) := do
  let val ← peek
  skip 1
  return val

/-- decoder.ts 156-161. -/
def validateKind (expected : Byte) (err : JsError) : D Unit := do
  let k ← peek
  if k = some expected then skip 1 else Js.throw err

/-- decoder.ts 163-165; negative when reads went past the end. -/
def Decoder.length (d : Decoder) : Int := d.buf.len - d.pos

/-- decoder.ts 167-184, the loop: `n` rounds are left.  `undefined < 128n` is false and `undefined & 127`
is 0, so reading past the end contributes nothing and goes on. -/
def varintRounds (signed : Bool) : (n : Nat) → (num : Int) → (shift : Nat) → D Int
  | 0, num, _ => return num
  | n + 1, num, shift => do
    match ← pop with
    | some b =>
      if b.toNat < 128 then
        let num := num + (b.toNat : Int) * 2 ^ shift
        if signed then return (if num % 2 = 0 then num / 2 else -((num + 1) / 2))
        return num
      varintRounds signed n (num + ((b.toNat % 128 : Nat) : Int) * 2 ^ shift) (shift + 7)
    | none => varintRounds signed n num (shift + 7)

/-- decoder.ts 167-184. -/
def readVarint (maxLen : Nat) (signed : Bool) : D Int := varintRounds signed maxLen 0 0

/-- decoder.ts 186-192. -/
def decNull : D Bool := do
  if (← peek) = some Kind.Null then
    skip 1
    return true
  return false

/-- decoder.ts 194-200. -/
def decAny : D Bool := do
  if (← peek) = some Kind.Any then
    skip 1
    return true
  return false

/-- decoder.ts 202-205. -/
def decBoolean : D Bool := do
  validateKind Kind.Boolean .InvalidBoolean
  return (← pop) = some 0x01

/-- `new DataView(this.buf.buffer, this.buf.byteOffset + this.#pos, n)` and reading it: the bound is that of
the underlying buffer, not of the array. -/
def readView (n : Nat) : D Bytes := fun d =>
  match dataView d.buf.buffer (d.buf.off + d.pos) n with
  | some bs => (.ok bs, d)
  | none => (.error .RangeError, d)

/-- decoder.ts 207-217. -/
def decUint8 : D Int := do
  validateKind Kind.Uint8 .InvalidUint8
  let val ← readView 1
  skip 1
  return ((val.headD 0).toNat : Int)

/-- decoder.ts 221-231, the loop: `n` rounds are left; 32-bit operators, with all values below 2^21. -/
def uint16Rounds : (n : Nat) → (num : Nat) → (shift : Nat) → D Int
  | 0, num, _ => return num
  | n + 1, num, shift => do
    match ← pop with
    | some b =>
      if b.toNat < 128 then return ((num ||| (b.toNat <<< shift) : Nat) : Int)
      uint16Rounds n (num ||| (b.toNat &&& (127 <<< shift))) (shift + 7)
    | none => uint16Rounds n num (shift + 7)

/-- decoder.ts 219-232. -/
def decUint16 : D Int := do
  validateKind Kind.Uint16 .InvalidUint16
  uint16Rounds 3 0 0

/-- decoder.ts 234-237. -/
def decUint32 : D Int := do
  validateKind Kind.Uint32 .InvalidUint32
  readVarint 5 false

/-- decoder.ts 239-242. -/
def decUint64 : D Int := do
  validateKind Kind.Uint64 .InvalidUint64
  readVarint 10 false

/-- decoder.ts 244-247. -/
def decInt32 : D Int := do
  validateKind Kind.Int32 .InvalidInt32
  readVarint 5 true

/-- decoder.ts 249-252. -/
def decInt64 : D Int := do
  validateKind Kind.Int64 .InvalidInt64
  readVarint 10 true

/-- decoder.ts 254-264; the bits. -/
def decFloat32 : D (BitVec 32) := do
  validateKind Kind.Float32 .InvalidFloat32
  let bs ← readView 4
  skip 4
  return BitVec.ofNat 32 (Spec.fromBigEndian bs)

/-- decoder.ts 266-276; the bits. -/
def decFloat64 : D (BitVec 64) := do
  validateKind Kind.Float64 .InvalidFloat64
  let bs ← readView 8
  skip 8
  return BitVec.ofNat 64 (Spec.fromBigEndian bs)

/-- decoder.ts 278-282. -/
def decArray (valueKind : Byte) : D Int := do
  validateKind Kind.Array .InvalidArray
  validateKind valueKind .InvalidArray
  decUint32

/-- decoder.ts 284-289. -/
def decMap (keyKind valueKind : Byte) : D Int := do
  validateKind Kind.Map .InvalidMap
  validateKind keyKind .InvalidMap
  validateKind valueKind .InvalidMap
  decUint32

/-- `this.buf.slice(this.#pos, this.#pos + size)`. -/
def sliceAhead (size : Int) : D Bytes := fun d => (.ok (d.buf.slice d.pos (d.pos + size.toNat)), d)

/-- decoder.ts 291-297. -/
def decUint8Array : D Bytes := do
  validateKind Kind.Uint8Array .InvalidUint8Array
  let size ← decUint32
  let value ← sliceAhead size
  skip size.toNat
  return value

/-- decoder.ts 299-307. -/
def decString (js : Platform) : D Bytes := do
  validateKind Kind.String .InvalidString
  let size ← decUint32
  let value := js.textDecode (← sliceAhead size)
  skip size.toNat
  return value

/-- decoder.ts 309-322. -/
def decError (js : Platform) : D Bytes := do
  validateKind Kind.Error .InvalidError
  let nestedType ← pop
  if nestedType ≠ some Kind.String then Js.throw .InvalidError
  let size ← decUint32
  let value := js.textDecode (← sliceAhead size)
  skip size.toNat
  return value

/-- One decoder call. -/
inductive Req where
  | null | any | array (kind : Byte) | map (keyKind valueKind : Byte) | uint8Array | string | error | boolean
  | uint8 | uint16 | uint32 | uint64 | int32 | int64 | float32 | float64
deriving DecidableEq, Repr

/-- What a call returns. -/
inductive Val where
  | bool (b : Bool)
  | num (n : Int)
  | float32 (bits : BitVec 32)
  | float64 (bits : BitVec 64)
  | bytes (v : Bytes)
  | string (v : Bytes)
  | error (message : Bytes)
deriving DecidableEq, Repr

/-- Run one decoder call. -/
def read (js : Platform) : Req → D Val
  | .null => do return .bool (← decNull)
  | .any => do return .bool (← decAny)
  | .array k => do return .num (← decArray k)
  | .map k v => do return .num (← decMap k v)
  | .uint8Array => do return .bytes (← decUint8Array)
  | .string => do return .string (← decString js)
  | .error => do return .error (← decError js)
  | .boolean => do return .bool (← decBoolean)
  | .uint8 => do return .num (← decUint8)
  | .uint16 => do return .num (← decUint16)
  | .uint32 => do return .num (← decUint32)
  | .uint64 => do return .num (← decUint64)
  | .int32 => do return .num (← decInt32)
  | .int64 => do return .num (← decInt64)
  | .float32 => do return .float32 (← decFloat32)
  | .float64 => do return .float64 (← decFloat64)

/-- Several calls, stopping at the first exception. -/
def readAll (js : Platform) : List Req → D (List Val)
  | [] => return []
  | q :: qs => do
    let v ← read js q
    let vs ← readAll js qs
    return v :: vs

end TS
