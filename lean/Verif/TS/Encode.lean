import Verif.TS.Js

/-!
# Model of the TypeScript encoder (/repo/encoder.ts)

Simplifications: numbers are integers (no fractions, NaN or infinities, no rounding above 2^53 - the integer
methods are used with at most 33 bits); floats are given by their bit pattern, strings and error messages by
the bytes `TextEncoder` makes of them.  The caller's array passed to the constructor is part of the state.
-/

namespace TS

/-- encoder.ts 27-30. -/
structure Encoder where
  buf : View
  pos : Nat
deriving DecidableEq, Repr

abbrev E := Js Encoder

/-- kind.ts 17-34. -/
def Kind.Null : Byte := 0x00
def Kind.Array : Byte := 0x01
def Kind.Map : Byte := 0x02
def Kind.Any : Byte := 0x03
def Kind.Uint8Array : Byte := 0x04
def Kind.String : Byte := 0x05
def Kind.Error : Byte := 0x06
def Kind.Boolean : Byte := 0x07
def Kind.Uint8 : Byte := 0x08
def Kind.Uint16 : Byte := 0x09
def Kind.Uint32 : Byte := 0x0a
def Kind.Uint64 : Byte := 0x0b
def Kind.Int32 : Byte := 0x0c
def Kind.Int64 : Byte := 0x0d
def Kind.Float32 : Byte := 0x0e
def Kind.Float64 : Byte := 0x0f

/-- encoder.ts 32-38: `new Encoder(buf)` and `new Encoder()`. -/
def newEncoder (buf : Option View) : Encoder :=
  match buf with
  | none => ⟨View.zeros 512, 0⟩
  | some b => ⟨b, 0⟩

/-- `this.#buf[this.#pos + i] = b`. -/
def storeAt (i : Nat) (b : Byte) : E Unit := Js.modify fun e => { e with buf := e.buf.store (e.pos + i) b }

/-- `this.#pos += n`. -/
def advance (n : Nat) : E Unit := Js.modify fun e => { e with pos := e.pos + n }

/-- `this.#buf.set(bs, this.#pos + i)`. -/
def setAt (i : Nat) (bs : Bytes) : E Unit := fun e =>
  match e.buf.set bs (e.pos + i) with
  | some b => (.ok (), { e with buf := b })
  | none => (.error .RangeError, e)

/-- encoder.ts 40-47: the new array has twice the size of the old array's *buffer*, once, whatever `minLen`.
(`length - pos < minLen` is written without subtraction.) -/
def resize (minLen : Nat) : E Unit := fun e =>
  if e.buf.len < e.pos + minLen then
    match (View.zeros (e.buf.buffer.length * 2)).set e.buf.contents 0 with
    | some b => (.ok (), { e with buf := b })
    | none => (.error .RangeError, { e with buf := View.zeros (e.buf.buffer.length * 2) })
  else (.ok (), e)

/-- encoder.ts 49-51: `new Uint8Array(this.#buf.buffer, 0, this.#pos)`, which throws a `RangeError` if the
buffer is shorter than that.  Its contents are returned. -/
def Encoder.bytes (e : Encoder) : Except JsError Bytes :=
  if e.pos ≤ e.buf.buffer.length then .ok (e.buf.buffer.take e.pos) else .error .RangeError

/-- encoder.ts 63-67: `while (val >= CONTINUATION) {…}` and the last byte.  `val | CONTINUATION` keeps the
low byte of `val`; `>>>=` goes through `ToUint32`. -/
def varintLoop (val : Int) : E Unit :=
  if _h : 128 ≤ val then do
    storeAt 0 (toUint8 val ||| 0x80#8)
    advance 1
    varintLoop ((toUint32 val / 128 : Nat) : Int)
  else do
    storeAt 0 (toUint8 val)
    advance 1
termination_by val.toNat
decreasing_by
  simp only [toUint32, Int.toNat_natCast]
  omega

/-- encoder.ts 53-69. -/
def varint (value : Int) (kind : Byte) (maxBytes : Nat) (signed : Bool) : E Unit := do
  resize maxBytes
  storeAt 0 kind
  advance 1
  let val := if signed then (if 0 ≤ value then value * 2 else value * -2 - 1) else value
  varintLoop val

/-- encoder.ts 86-91, on bigints. -/
def varintBigLoop (val : Int) : E Unit :=
  if _h : 128 ≤ val then do
    storeAt 0 (toUint8 (val % 128) ||| 0x80#8)
    advance 1
    varintBigLoop (val / 128)
  else do
    storeAt 0 (toUint8 val)
    advance 1
termination_by val.toNat
decreasing_by omega

/-- encoder.ts 71-93. -/
def varintBig (value : Int) (kind : Byte) (maxBytes : Nat) (signed : Bool) : E Unit := do
  resize maxBytes
  storeAt 0 kind
  advance 1
  let val := if signed then (if 0 ≤ value then value * 2 else value * -2 - 1) else value
  varintBigLoop val

/-- encoder.ts 95-100. -/
def encNull : E Unit := do
  resize 1
  storeAt 0 Kind.Null
  advance 1

/-- encoder.ts 102-107. -/
def encAny : E Unit := do
  resize 1
  storeAt 0 Kind.Any
  advance 1

/-- encoder.ts 109-115. -/
def encBoolean (value : Bool) : E Unit := do
  resize 2
  storeAt 0 Kind.Boolean
  storeAt 1 (if value then 0x01 else 0x00)
  advance 2

/-- encoder.ts 117-128. -/
def encUint8 (value : Int) : E Unit := do
  resize 2
  storeAt 0 Kind.Uint8
  let bytes := [toUint8 value]
  setAt 1 bytes
  advance (bytes.length + 1)

/-- encoder.ts 130-132. -/
def encUint16 (value : Int) : E Unit := varint value Kind.Uint16 3 false
/-- encoder.ts 134-136. -/
def encUint32 (value : Int) : E Unit := varint value Kind.Uint32 5 false
/-- encoder.ts 138-140. -/
def encUint64 (value : Int) : E Unit := varintBig value Kind.Uint64 9 false
/-- encoder.ts 142-144. -/
def encInt32 (value : Int) : E Unit := varint value Kind.Int32 5 true
/-- encoder.ts 146-148. -/
def encInt64 (value : Int) : E Unit := varintBig value Kind.Int64 9 true

/-- `DataView.setFloat32`/`setFloat64` without the `littleEndian` argument: big-endian bytes. -/
def beBytes {w : Nat} (k : Nat) (v : BitVec w) : Bytes :=
  (List.range k).map fun i => (v >>> (8 * (k - 1 - i))).setWidth 8

/-- encoder.ts 150-161. -/
def encFloat32 (bits : BitVec 32) : E Unit := do
  resize 5
  storeAt 0 Kind.Float32
  let bytes := beBytes 4 bits
  setAt 1 bytes
  advance (bytes.length + 1)

/-- encoder.ts 163-174. -/
def encFloat64 (bits : BitVec 64) : E Unit := do
  resize 9
  storeAt 0 Kind.Float64
  let bytes := beBytes 8 bits
  setAt 1 bytes
  advance (bytes.length + 1)

/-- encoder.ts 176-183. -/
def encArray (size : Int) (valueKind : Byte) : E Unit := do
  resize 2
  storeAt 0 Kind.Array
  storeAt 1 valueKind
  advance 2
  encUint32 size

/-- encoder.ts 185-193. -/
def encMap (size : Int) (keyKind valueKind : Byte) : E Unit := do
  resize 3
  storeAt 0 Kind.Map
  storeAt 1 keyKind
  storeAt 2 valueKind
  advance 3
  encUint32 size

/-- encoder.ts 195-203. -/
def encUint8Array (value : Bytes) : E Unit := do
  resize (5 + value.length)
  storeAt 0 Kind.Uint8Array
  advance 1
  encUint32 value.length
  setAt 0 value
  advance value.length

/-- encoder.ts 205-215; `v` is what `TextEncoder` makes of the string. -/
def encString (v : Bytes) : E Unit := do
  resize (5 + v.length)
  storeAt 0 Kind.String
  advance 1
  encUint32 v.length
  setAt 0 v
  advance v.length

/-- encoder.ts 217-228; `v` is what `TextEncoder` makes of the message. -/
def encError (v : Bytes) : E Unit := do
  resize (6 + v.length)
  storeAt 0 Kind.Error
  storeAt 1 Kind.String
  advance 2
  encUint32 v.length
  setAt 0 v
  advance v.length

/-- The encoder call that writes an item. -/
def encodeItem : Spec.Item → E Unit
  | .nil => encNull
  | .map size k v => encMap size.toNat k v
  | .slice size k => encArray size.toNat k
  | .bytes v => encUint8Array v
  | .string v => encString v
  | .error m => encError m
  | .bool v => encBoolean v
  | .uint8 v => encUint8 v.toNat
  | .uint16 v => encUint16 v.toNat
  | .uint32 v => encUint32 v.toNat
  | .uint64 v => encUint64 v.toNat
  | .int32 v => encInt32 v.toInt
  | .int64 v => encInt64 v.toInt
  | .float32 v => encFloat32 v
  | .float64 v => encFloat64 v

/-- Several calls, one after the other. -/
def encodeItems : List Spec.Item → E Unit
  | [] => pure ()
  | i :: is => do
    encodeItem i
    encodeItems is

end TS
