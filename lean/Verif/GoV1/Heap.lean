import Verif.GoV1.Encode
import Verif.GoV2.Heap

/-!
# /repo/buffer.go and /repo/encode.go (v1) over memory

The statements of `GoV1/Buffer.lean` and `GoV1/Encode.lean` again, with slices as references into shared arrays
(`GoV2/Heap.lean`).  A v1 `Buffer` is itself a slice.  The package's own kind variables (`NilKind` etc.), which nothing in the
package modifies, and strings, which are immutable, stay values; byte slices and kinds passed by the user are references.
-/

namespace GoV1.Heap

open GoV2 (Runtime mk0)
open GoV2.Heap (Heap Slice H make)
open Spec (Item)

/-- buffer.go 38-41: `make(Buffer, 0, defaultSize)`. -/
def NewBuffer : H Slice := do
  let c ← make defaultSize
  c.slice 0 0

/-- buffer.go 25-27. -/
def Reset (buf : Slice) : H Slice := buf.slice 0 0

/-- buffer.go 29-36; the argument is read when `append` or `copy` runs. -/
def Write (rt : Runtime) (buf b : Slice) : H (Slice × Nat) := do
  if (buf.cap : Int) - buf.len < b.len then
    let s ← buf.slice 0 buf.len
    let s ← s.append rt (← b.read)
    return (s, b.len)
  else
    let dst ← buf.slice buf.len buf.cap
    let n ← dst.copy (← b.read)
    let s ← buf.slice 0 (buf.len + n)
    return (s, b.len)

/-- buffer.go 29-36 with an argument that nobody can modify: a package variable or a string's bytes. -/
def WriteValue (rt : Runtime) (buf : Slice) (b : _root_.Bytes) : H (Slice × Nat) := do
  if (buf.cap : Int) - buf.len < b.length then
    let s ← buf.slice 0 buf.len
    let s ← s.append rt b
    return (s, b.length)
  else
    let dst ← buf.slice buf.len buf.cap
    let n ← dst.copy b
    let s ← buf.slice 0 (buf.len + n)
    return (s, b.length)

/-- buffer.go 43-45: the result shares the buffer's memory. -/
def Bytes (buf : Slice) : Slice := buf

/-- encode.go 61-63. -/
def encodeNil (rt : Runtime) (b : Slice) : H Slice := do
  let (b, _) ← WriteValue rt b NilKind
  return b

/-- encode.go 119-147 (the loop, the same text in all five integer encoders). -/
def varintLoop {w : Nat} (rt : Runtime) (b : Slice) (value : BitVec w) (hw : 8 ≤ w) : H Slice :=
  if h : value ≥ continuation then do
    let b ← b.append rt [value.setWidth 8 ||| continuation]
    varintLoop rt b (value >>> 7) hw
  else
    b.append rt [value.setWidth 8]
termination_by value.toNat
decreasing_by
  have h1 : 128 ≤ value.toNat := by
    have := BitVec.le_def.mp h
    rwa [continuation, toNat_0x80 hw] at this
  rw [toNat_shr7]
  omega

/-- encode.go 119-127. -/
def encodeUint16 (rt : Runtime) (b : Slice) (value : BitVec 16) : H Slice := do
  let (b, _) ← WriteValue rt b Uint16Kind
  varintLoop rt b value (by decide)

/-- encode.go 129-137. -/
def encodeUint32 (rt : Runtime) (b : Slice) (value : BitVec 32) : H Slice := do
  let (b, _) ← WriteValue rt b Uint32Kind
  varintLoop rt b value (by decide)

/-- encode.go 139-147. -/
def encodeUint64 (rt : Runtime) (b : Slice) (value : BitVec 64) : H Slice := do
  let (b, _) ← WriteValue rt b Uint64Kind
  varintLoop rt b value (by decide)

/-- encode.go 65-70 with kinds that are slices of the user. -/
def encodeMap (rt : Runtime) (b : Slice) (size : BitVec 32) (keyKind valueKind : Slice) : H Slice := do
  let (b, _) ← WriteValue rt b MapKind
  let (b, _) ← Write rt b keyKind
  let (b, _) ← Write rt b valueKind
  encodeUint32 rt b size

/-- encode.go 65-70 with kinds that are variables of the package. -/
def encodeMapValue (rt : Runtime) (b : Slice) (size : BitVec 32) (keyKind valueKind : Kind) : H Slice := do
  let (b, _) ← WriteValue rt b MapKind
  let (b, _) ← WriteValue rt b keyKind
  let (b, _) ← WriteValue rt b valueKind
  encodeUint32 rt b size

/-- encode.go 72-76 with a kind that is a slice of the user. -/
def encodeSlice (rt : Runtime) (b : Slice) (size : BitVec 32) (kind : Slice) : H Slice := do
  let (b, _) ← WriteValue rt b SliceKind
  let (b, _) ← Write rt b kind
  encodeUint32 rt b size

/-- encode.go 72-76 with a kind that is a variable of the package. -/
def encodeSliceValue (rt : Runtime) (b : Slice) (size : BitVec 32) (kind : Kind) : H Slice := do
  let (b, _) ← WriteValue rt b SliceKind
  let (b, _) ← WriteValue rt b kind
  encodeUint32 rt b size

/-- encode.go 78-82. -/
def encodeBytes (rt : Runtime) (b : Slice) (value : Slice) : H Slice := do
  let (b, _) ← WriteValue rt b BytesKind
  let b ← encodeUint32 rt b (BitVec.ofNat 32 value.len)
  let (b, _) ← Write rt b value
  return b

/-- encode.go 84-96. -/
def encodeString (rt : Runtime) (b : Slice) (value : _root_.Bytes) : H Slice := do
  let (b, _) ← WriteValue rt b StringKind
  let b ← encodeUint32 rt b (BitVec.ofNat 32 value.length)
  let (b, _) ← WriteValue rt b value
  return b

/-- encode.go 98-101. -/
def encodeError (rt : Runtime) (b : Slice) (err : Option _root_.Bytes) : H Slice := do
  let (b, _) ← WriteValue rt b ErrorKind
  match err with
  | none => H.panic
  | some m => encodeString rt b m

/-- encode.go 103-110. -/
def encodeBool (rt : Runtime) (b : Slice) (value : Bool) : H Slice := do
  let (b, _) ← WriteValue rt b BoolKind
  if value then
    b.append rt [trueBool]
  else
    b.append rt [falseBool]

/-- encode.go 112-115. -/
def encodeUint8 (rt : Runtime) (b : Slice) (value : BitVec 8) : H Slice := do
  let (b, _) ← WriteValue rt b Uint8Kind
  b.append rt [value]

/-- encode.go 149-162. -/
def encodeInt32 (rt : Runtime) (b : Slice) (value : BitVec 32) : H Slice := do
  let (b, _) ← WriteValue rt b Int32Kind
  let mut castValue := value <<< 1
  if value.slt 0 then
    castValue := ~~~castValue
  varintLoop rt b castValue (by decide)

/-- encode.go 164-177. -/
def encodeInt64 (rt : Runtime) (b : Slice) (value : BitVec 64) : H Slice := do
  let (b, _) ← WriteValue rt b Int64Kind
  let mut castValue := value <<< 1
  if value.slt 0 then
    castValue := ~~~castValue
  varintLoop rt b castValue (by decide)

/-- encode.go 179-183. -/
def encodeFloat32 (rt : Runtime) (b : Slice) (castValue : BitVec 32) : H Slice := do
  let (b, _) ← WriteValue rt b Float32Kind
  b.append rt [(castValue >>> 24).setWidth 8, (castValue >>> 16).setWidth 8,
    (castValue >>> 8).setWidth 8, castValue.setWidth 8]

/-- encode.go 185-189. -/
def encodeFloat64 (rt : Runtime) (b : Slice) (castValue : BitVec 64) : H Slice := do
  let (b, _) ← WriteValue rt b Float64Kind
  b.append rt [(castValue >>> 56).setWidth 8, (castValue >>> 48).setWidth 8,
    (castValue >>> 40).setWidth 8, (castValue >>> 32).setWidth 8, (castValue >>> 24).setWidth 8,
    (castValue >>> 16).setWidth 8, (castValue >>> 8).setWidth 8, castValue.setWidth 8]

/-- A call on a v1 buffer (buffer.go 25-36, encoder.go 25-98). -/
inductive Call where
  /-- an encoder method other than `Bytes`; kinds are the package's -/
  | encode (i : Item)
  /-- `Encoder.Bytes(w)` -/
  | bytes (w : Slice)
  /-- `Encoder.Map(size, k, v)` with the user's own kinds -/
  | map (size : BitVec 32) (k v : Slice)
  /-- `Encoder.Slice(size, k)` with the user's own kind -/
  | slice (size : BitVec 32) (k : Slice)
  /-- `Buffer.Write(w)` -/
  | write (w : Slice)
  /-- `Buffer.Reset()` -/
  | reset
deriving Repr

/-- A call that can be written in a program: `Bytes` takes a slice, not a value. -/
def Call.Proper : Call → Prop
  | .encode (.bytes _) => False
  | _ => True

/-- The slices passed to the call. -/
def Call.args : Call → List Slice
  | .bytes w => [w]
  | .map _ k v => [k, v]
  | .slice _ k => [k]
  | .write w => [w]
  | _ => []

/-- One call executed by the model. -/
def Call.run (rt : Runtime) (p : Slice) : Call → H Slice
  | .encode .nil => encodeNil rt p
  | .encode (.map size k v) => encodeMapValue rt p size [k] [v]
  | .encode (.slice size k) => encodeSliceValue rt p size [k]
  | .encode (.bytes _) => H.panic -- not a call: see `Call.bytes`
  | .encode (.string v) => encodeString rt p v
  | .encode (.error m) => encodeError rt p (some m)
  | .encode (.bool v) => encodeBool rt p v
  | .encode (.uint8 v) => encodeUint8 rt p v
  | .encode (.uint16 v) => encodeUint16 rt p v
  | .encode (.uint32 v) => encodeUint32 rt p v
  | .encode (.uint64 v) => encodeUint64 rt p v
  | .encode (.int32 v) => encodeInt32 rt p v
  | .encode (.int64 v) => encodeInt64 rt p v
  | .encode (.float32 v) => encodeFloat32 rt p v
  | .encode (.float64 v) => encodeFloat64 rt p v
  | .bytes w => encodeBytes rt p w
  | .map size k v => encodeMap rt p size k v
  | .slice size k => encodeSlice rt p size k
  | .write w => do
    let (p, _) ← Write rt p w
    return p
  | .reset => Reset p

end GoV1.Heap
