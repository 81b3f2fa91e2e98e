import Verif.GoV1.Buffer
import Verif.BitFacts

/-!
# Model of /repo/encode.go and /repo/encoder.go (v1)

The functions are transcribed statement by statement; `*b = append(*b, x)` is `b.append rt [x]`.  A v1
`Kind` is a byte *slice*.
-/

namespace GoV1

open GoV2 (Runtime)
open Spec (Item)

/-- encode.go 25: `type Kind []byte`. -/
abbrev Kind := Bytes

/-! encode.go 27-44. -/
def NilKind : Kind := [0]
def SliceKind : Kind := [1]
def MapKind : Kind := [2]
def AnyKind : Kind := [3]
def BytesKind : Kind := [4]
def StringKind : Kind := [5]
def ErrorKind : Kind := [6]
def BoolKind : Kind := [7]
def Uint8Kind : Kind := [8]
def Uint16Kind : Kind := [9]
def Uint32Kind : Kind := [10]
def Uint64Kind : Kind := [11]
def Int32Kind : Kind := [12]
def Int64Kind : Kind := [13]
def Float32Kind : Kind := [14]
def Float64Kind : Kind := [15]

/-- encode.go 56-59. -/
def falseBool : Byte := 0
/-- encode.go 56-59. -/
def trueBool : Byte := 1

/-- decode.go 29: the untyped constant `continuation = 0x80`, at any integer type. -/
def continuation {w : Nat} : BitVec w := 0x80#w

/-- encode.go 61-63. -/
def encodeNil (rt : Runtime) (b : Buffer) : Go Buffer := do
  let (b, _) ← b.Write rt NilKind
  return b

/-- encode.go 129-137, 119-127, 139-147 (the loop, the same text in all five integer encoders):
`for value >= continuation { *b = append(*b, byte(value)|continuation); value >>= 7 };
*b = append(*b, byte(value))`.  Go's loop as recursion; it terminates because the value shrinks. -/
def varintLoop {w : Nat} (rt : Runtime) (b : Buffer) (value : BitVec w) (hw : 8 ≤ w) : Buffer :=
  if h : value ≥ continuation then
    varintLoop rt (b.append rt [value.setWidth 8 ||| continuation]) (value >>> 7) hw
  else
    b.append rt [value.setWidth 8]
termination_by value.toNat
decreasing_by
  have h1 : 128 ≤ value.toNat := by
    have := BitVec.le_def.mp h
    rwa [continuation, toNat_0x80 hw] at this
  rw [toNat_shr7]
  omega

/-- encode.go 119-127. -/
def encodeUint16 (rt : Runtime) (b : Buffer) (value : BitVec 16) : Go Buffer := do
  let (b, _) ← b.Write rt Uint16Kind
  return varintLoop rt b value (by decide)

/-- encode.go 129-137. -/
def encodeUint32 (rt : Runtime) (b : Buffer) (value : BitVec 32) : Go Buffer := do
  let (b, _) ← b.Write rt Uint32Kind
  return varintLoop rt b value (by decide)

/-- encode.go 139-147. -/
def encodeUint64 (rt : Runtime) (b : Buffer) (value : BitVec 64) : Go Buffer := do
  let (b, _) ← b.Write rt Uint64Kind
  return varintLoop rt b value (by decide)

/-- encode.go 65-70. -/
def encodeMap (rt : Runtime) (b : Buffer) (size : BitVec 32) (keyKind valueKind : Kind) : Go Buffer := do
  let (b, _) ← b.Write rt MapKind
  let (b, _) ← b.Write rt keyKind
  let (b, _) ← b.Write rt valueKind
  encodeUint32 rt b size

/-- encode.go 72-76. -/
def encodeSlice (rt : Runtime) (b : Buffer) (size : BitVec 32) (kind : Kind) : Go Buffer := do
  let (b, _) ← b.Write rt SliceKind
  let (b, _) ← b.Write rt kind
  encodeUint32 rt b size

/-- encode.go 78-82; `uint32(len(value))` truncates. -/
def encodeBytes (rt : Runtime) (b : Buffer) (value : Bytes) : Go Buffer := do
  let (b, _) ← b.Write rt BytesKind
  let b ← encodeUint32 rt b (BitVec.ofNat 32 value.length)
  let (b, _) ← b.Write rt value
  return b

/-- encode.go 84-96 (the unsafe header conversion yields the string's bytes). -/
def encodeString (rt : Runtime) (b : Buffer) (value : Bytes) : Go Buffer := do
  let (b, _) ← b.Write rt StringKind
  let b ← encodeUint32 rt b (BitVec.ofNat 32 value.length)
  let (b, _) ← b.Write rt value
  return b

/-- encode.go 98-101; `none` is a nil error, whose `Error()` call panics. -/
def encodeError (rt : Runtime) (b : Buffer) (err : Option Bytes) : Go Buffer := do
  let (b, _) ← b.Write rt ErrorKind
  match err with
  | none => .panic
  | some m => encodeString rt b m

/-- encode.go 103-110. -/
def encodeBool (rt : Runtime) (b : Buffer) (value : Bool) : Go Buffer := do
  let (b, _) ← b.Write rt BoolKind
  if value then
    return b.append rt [trueBool]
  else
    return b.append rt [falseBool]

/-- encode.go 112-115. -/
def encodeUint8 (rt : Runtime) (b : Buffer) (value : BitVec 8) : Go Buffer := do
  let (b, _) ← b.Write rt Uint8Kind
  return b.append rt [value]

/-- encode.go 149-162. -/
def encodeInt32 (rt : Runtime) (b : Buffer) (value : BitVec 32) : Go Buffer := do
  let (b, _) ← b.Write rt Int32Kind
  let mut castValue := value <<< 1
  if value.slt 0 then
    castValue := ~~~castValue
  return varintLoop rt b castValue (by decide)

/-- encode.go 164-177. -/
def encodeInt64 (rt : Runtime) (b : Buffer) (value : BitVec 64) : Go Buffer := do
  let (b, _) ← b.Write rt Int64Kind
  let mut castValue := value <<< 1
  if value.slt 0 then
    castValue := ~~~castValue
  return varintLoop rt b castValue (by decide)

/-- encode.go 179-183; the argument is `math.Float32bits(value)`. -/
def encodeFloat32 (rt : Runtime) (b : Buffer) (castValue : BitVec 32) : Go Buffer := do
  let (b, _) ← b.Write rt Float32Kind
  return b.append rt [(castValue >>> 24).setWidth 8, (castValue >>> 16).setWidth 8,
    (castValue >>> 8).setWidth 8, castValue.setWidth 8]

/-- encode.go 185-189; the argument is `math.Float64bits(value)`. -/
def encodeFloat64 (rt : Runtime) (b : Buffer) (castValue : BitVec 64) : Go Buffer := do
  let (b, _) ← b.Write rt Float64Kind
  return b.append rt [(castValue >>> 56).setWidth 8, (castValue >>> 48).setWidth 8,
    (castValue >>> 40).setWidth 8, (castValue >>> 32).setWidth 8, (castValue >>> 24).setWidth 8,
    (castValue >>> 16).setWidth 8, (castValue >>> 8).setWidth 8, castValue.setWidth 8]

/-- encoder.go 25-98: one encoder method call, with the kinds of map and slice headers given as
one-byte `Kind` values (as all the package's kind variables are). -/
def encodeItem (rt : Runtime) (b : Buffer) : Item → Go Buffer
  | .nil => encodeNil rt b
  | .map size k v => encodeMap rt b size [k] [v]
  | .slice size k => encodeSlice rt b size [k]
  | .bytes v => encodeBytes rt b v
  | .string v => encodeString rt b v
  | .error m => encodeError rt b (some m)
  | .bool v => encodeBool rt b v
  | .uint8 v => encodeUint8 rt b v
  | .uint16 v => encodeUint16 rt b v
  | .uint32 v => encodeUint32 rt b v
  | .uint64 v => encodeUint64 rt b v
  | .int32 v => encodeInt32 rt b v
  | .int64 v => encodeInt64 rt b v
  | .float32 v => encodeFloat32 rt b v
  | .float64 v => encodeFloat64 rt b v

/-- A chain of encoder method calls on one buffer. -/
def encodeItems (rt : Runtime) (b : Buffer) : List Item → Go Buffer
  | [] => .ok b
  | i :: is => do
    let b ← encodeItem rt b i
    encodeItems rt b is

end GoV1
