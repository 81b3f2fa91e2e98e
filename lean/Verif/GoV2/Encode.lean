import Verif.GoV2.Buffer

/-!
# Model of /repo/v2/encode.go and /repo/v2/encoder.go

Each `encode*` function is transcribed statement by statement: `b.b[offset] = x` is `b.store offset x`
(which carries the bounds check against `len(b.b)`), `offset++` is `offset := offset + 1`, and the
unrolled varint ladders keep their nesting.  The pointer receiver becomes a returned buffer.
-/

namespace GoV2

/-- v2/decode.go 29: the untyped constant `continuation = 0x80`, at any integer type. -/
def continuation {w : Nat} : BitVec w := 0x80#w

/-! Kind bytes, v2/encode.go 24-41. -/
def NilRawKind : Byte := 0
def SliceRawKind : Byte := 1
def MapRawKind : Byte := 2
def AnyRawKind : Byte := 3
def BytesRawKind : Byte := 4
def StringRawKind : Byte := 5
def ErrorRawKind : Byte := 6
def BoolRawKind : Byte := 7
def Uint8RawKind : Byte := 8
def Uint16RawKind : Byte := 9
def Uint32RawKind : Byte := 10
def Uint64RawKind : Byte := 11
def Int32RawKind : Byte := 12
def Int64RawKind : Byte := 13
def Float32RawKind : Byte := 14
def Float64RawKind : Byte := 15

/-- v2/encode.go 43: `type Kind byte`. -/
abbrev Kind := Byte

/-- v2/encode.go 64-67. -/
def falseBool : Byte := 0
/-- v2/encode.go 64-67. -/
def trueBool : Byte := 1

/-! v2/decode.go 26-28. -/
def VarIntLen16 : Int := 3
def VarIntLen32 : Int := 5
def VarIntLen64 : Int := 10

/-! Reserved sizes, v2/encode.go 69-83. -/
def nilSize : Int := 1
def boolSize : Int := 2
def uint8Size : Int := 2
def uint16Size : Int := 1 + VarIntLen16
def uint32Size : Int := 1 + VarIntLen32
def uint64Size : Int := 1 + VarIntLen64
def float32Size : Int := 5
def float64Size : Int := 9
def mapSize : Int := 3 + uint32Size
def sliceSize : Int := 2 + uint32Size
def bytesSize : Int := 1 + uint32Size
def stringSize : Int := 1 + uint32Size
def errorSize : Int := 1 + stringSize

/-- `b.offset = offset + copy(b.b[offset:], value)`: copies up to `len(b.b)`, panics if
`offset > len(b.b)` (v2/encode.go 245, 298, 354). -/
def Buffer.copyTail (b : Buffer) (offset : Int) (value : _root_.Bytes) : Go Buffer := do
  let (arr, n) ← copyInto b.arr offset b.len value
  return { b with arr := arr, offset := offset + n }

/-- v2/encode.go 85-89. -/
def encodeNil (rt : Runtime) (b : Buffer) : Go Buffer := do
  let mut b ← b.Grow rt nilSize
  b ← b.store b.offset NilRawKind
  return { b with offset := b.offset + 1 }

/-- v2/encode.go 91-143. -/
def encodeMap (rt : Runtime) (b : Buffer) (size : BitVec 32) (keyKind valueKind : Kind) : Go Buffer := do
  let mut b ← b.Grow rt (mapSize)
  let mut offset := b.offset
  let mut size := size
  b ← b.store offset MapRawKind
  offset := offset + 1
  b ← b.store offset keyKind
  offset := offset + 1
  b ← b.store offset valueKind
  offset := offset + 1
  b ← b.store offset Uint32RawKind
  offset := offset + 1
  if size < continuation then
    b ← b.store offset (size.setWidth 8)
    b := { b with offset := offset + 1 }
  else
    b ← b.store offset ((size &&& (continuation - 1)).setWidth 8 ||| continuation)
    offset := offset + 1
    size := size >>> 7
    if size < continuation then
      b ← b.store offset (size.setWidth 8)
      b := { b with offset := offset + 1 }
    else
      b ← b.store offset ((size &&& (continuation - 1)).setWidth 8 ||| continuation)
      offset := offset + 1
      size := size >>> 7
      if size < continuation then
        b ← b.store offset (size.setWidth 8)
        b := { b with offset := offset + 1 }
      else
        b ← b.store offset ((size &&& (continuation - 1)).setWidth 8 ||| continuation)
        offset := offset + 1
        size := size >>> 7
        if size < continuation then
          b ← b.store offset (size.setWidth 8)
          b := { b with offset := offset + 1 }
        else
          b ← b.store offset ((size &&& (continuation - 1)).setWidth 8 ||| continuation)
          offset := offset + 1
          size := size >>> 7
          if size < continuation then
            b ← b.store offset (size.setWidth 8)
            b := { b with offset := offset + 1 }
          else
            b ← b.store offset ((size &&& (continuation - 1)).setWidth 8 ||| continuation)
            offset := offset + 1
            b ← b.store offset ((size >>> 7).setWidth 8)
            b := { b with offset := offset + 1 }
  return b

/-- v2/encode.go 145-195. -/
def encodeSlice (rt : Runtime) (b : Buffer) (size : BitVec 32) (kind : Kind) : Go Buffer := do
  let mut b ← b.Grow rt (sliceSize)
  let mut offset := b.offset
  let mut size := size
  b ← b.store offset SliceRawKind
  offset := offset + 1
  b ← b.store offset kind
  offset := offset + 1
  b ← b.store offset Uint32RawKind
  offset := offset + 1
  if size < continuation then
    b ← b.store offset (size.setWidth 8)
    b := { b with offset := offset + 1 }
  else
    b ← b.store offset ((size &&& (continuation - 1)).setWidth 8 ||| continuation)
    offset := offset + 1
    size := size >>> 7
    if size < continuation then
      b ← b.store offset (size.setWidth 8)
      b := { b with offset := offset + 1 }
    else
      b ← b.store offset ((size &&& (continuation - 1)).setWidth 8 ||| continuation)
      offset := offset + 1
      size := size >>> 7
      if size < continuation then
        b ← b.store offset (size.setWidth 8)
        b := { b with offset := offset + 1 }
      else
        b ← b.store offset ((size &&& (continuation - 1)).setWidth 8 ||| continuation)
        offset := offset + 1
        size := size >>> 7
        if size < continuation then
          b ← b.store offset (size.setWidth 8)
          b := { b with offset := offset + 1 }
        else
          b ← b.store offset ((size &&& (continuation - 1)).setWidth 8 ||| continuation)
          offset := offset + 1
          size := size >>> 7
          if size < continuation then
            b ← b.store offset (size.setWidth 8)
            b := { b with offset := offset + 1 }
          else
            b ← b.store offset ((size &&& (continuation - 1)).setWidth 8 ||| continuation)
            offset := offset + 1
            b ← b.store offset ((size >>> 7).setWidth 8)
            b := { b with offset := offset + 1 }
  return b

/-- v2/encode.go 197-246. Note the missing `offset++` in the fifth-byte branch (source line 235). -/
def encodeBytes (rt : Runtime) (b : Buffer) (value : Bytes) : Go Buffer := do
  let mut b ← b.Grow rt (bytesSize + value.length)
  let mut castValue := BitVec.ofNat 32 value.length
  let mut offset := b.offset
  b ← b.store offset BytesRawKind
  offset := offset + 1
  b ← b.store offset Uint32RawKind
  offset := offset + 1
  if castValue < continuation then
    b ← b.store offset (castValue.setWidth 8)
    offset := offset + 1
  else
    b ← b.store offset ((castValue &&& (continuation - 1)).setWidth 8 ||| continuation)
    offset := offset + 1
    castValue := castValue >>> 7
    if castValue < continuation then
      b ← b.store offset (castValue.setWidth 8)
      offset := offset + 1
    else
      b ← b.store offset ((castValue &&& (continuation - 1)).setWidth 8 ||| continuation)
      offset := offset + 1
      castValue := castValue >>> 7
      if castValue < continuation then
        b ← b.store offset (castValue.setWidth 8)
        offset := offset + 1
      else
        b ← b.store offset ((castValue &&& (continuation - 1)).setWidth 8 ||| continuation)
        offset := offset + 1
        castValue := castValue >>> 7
        if castValue < continuation then
          b ← b.store offset (castValue.setWidth 8)
          offset := offset + 1
        else
          b ← b.store offset ((castValue &&& (continuation - 1)).setWidth 8 ||| continuation)
          offset := offset + 1
          castValue := castValue >>> 7
          if castValue < continuation then
            b ← b.store offset (castValue.setWidth 8)
            -- (the source has no `offset++` here)
          else
            b ← b.store offset ((castValue &&& (continuation - 1)).setWidth 8 ||| continuation)
            offset := offset + 1
            b ← b.store offset ((castValue >>> 7).setWidth 8)
            offset := offset + 1
  b.copyTail offset value

/-- v2/encode.go 247-298. `unsafe.Slice(unsafe.StringData(value), len(value))` is the string's bytes. -/
def encodeString (rt : Runtime) (b : Buffer) (value : Bytes) : Go Buffer := do
  let mut b ← b.Grow rt (stringSize + value.length)
  let mut castValue := BitVec.ofNat 32 value.length
  let mut offset := b.offset
  b ← b.store offset StringRawKind
  offset := offset + 1
  b ← b.store offset Uint32RawKind
  offset := offset + 1
  if castValue < continuation then
    b ← b.store offset (castValue.setWidth 8)
    offset := offset + 1
  else
    b ← b.store offset ((castValue &&& (continuation - 1)).setWidth 8 ||| continuation)
    offset := offset + 1
    castValue := castValue >>> 7
    if castValue < continuation then
      b ← b.store offset (castValue.setWidth 8)
      offset := offset + 1
    else
      b ← b.store offset ((castValue &&& (continuation - 1)).setWidth 8 ||| continuation)
      offset := offset + 1
      castValue := castValue >>> 7
      if castValue < continuation then
        b ← b.store offset (castValue.setWidth 8)
        offset := offset + 1
      else
        b ← b.store offset ((castValue &&& (continuation - 1)).setWidth 8 ||| continuation)
        offset := offset + 1
        castValue := castValue >>> 7
        if castValue < continuation then
          b ← b.store offset (castValue.setWidth 8)
          offset := offset + 1
        else
          b ← b.store offset ((castValue &&& (continuation - 1)).setWidth 8 ||| continuation)
          offset := offset + 1
          castValue := castValue >>> 7
          if castValue < continuation then
            b ← b.store offset (castValue.setWidth 8)
            offset := offset + 1
          else
            b ← b.store offset ((castValue &&& (continuation - 1)).setWidth 8 ||| continuation)
            offset := offset + 1
            b ← b.store offset ((castValue >>> 7).setWidth 8)
            offset := offset + 1
  b.copyTail offset value

/-- v2/encode.go 300-354. The part after `errString := err.Error()`. -/
def encodeErrorMessage (rt : Runtime) (b : Buffer) (value : Bytes) : Go Buffer := do
  let mut b ← b.Grow rt (errorSize + value.length)
  let mut castValue := BitVec.ofNat 32 value.length
  let mut offset := b.offset
  b ← b.store offset ErrorRawKind
  offset := offset + 1
  b ← b.store offset StringRawKind
  offset := offset + 1
  b ← b.store offset Uint32RawKind
  offset := offset + 1
  if castValue < continuation then
    b ← b.store offset (castValue.setWidth 8)
    offset := offset + 1
  else
    b ← b.store offset ((castValue &&& (continuation - 1)).setWidth 8 ||| continuation)
    offset := offset + 1
    castValue := castValue >>> 7
    if castValue < continuation then
      b ← b.store offset (castValue.setWidth 8)
      offset := offset + 1
    else
      b ← b.store offset ((castValue &&& (continuation - 1)).setWidth 8 ||| continuation)
      offset := offset + 1
      castValue := castValue >>> 7
      if castValue < continuation then
        b ← b.store offset (castValue.setWidth 8)
        offset := offset + 1
      else
        b ← b.store offset ((castValue &&& (continuation - 1)).setWidth 8 ||| continuation)
        offset := offset + 1
        castValue := castValue >>> 7
        if castValue < continuation then
          b ← b.store offset (castValue.setWidth 8)
          offset := offset + 1
        else
          b ← b.store offset ((castValue &&& (continuation - 1)).setWidth 8 ||| continuation)
          offset := offset + 1
          castValue := castValue >>> 7
          if castValue < continuation then
            b ← b.store offset (castValue.setWidth 8)
            offset := offset + 1
          else
            b ← b.store offset ((castValue &&& (continuation - 1)).setWidth 8 ||| continuation)
            offset := offset + 1
            b ← b.store offset ((castValue >>> 7).setWidth 8)
            offset := offset + 1
  b.copyTail offset value

/-- v2/encode.go 300-354.  `err.Error()` on a nil interface panics; a non-nil error is
represented by its message. -/
def encodeError (rt : Runtime) (b : Buffer) (err : Option Bytes) : Go Buffer :=
  match err with
  | none => .panic
  | some errString => encodeErrorMessage rt b errString

/-- v2/encode.go 356-367. -/
def encodeBool (rt : Runtime) (b : Buffer) (value : Bool) : Go Buffer := do
  let mut b ← b.Grow rt (boolSize)
  let mut offset := b.offset
  b ← b.store offset BoolRawKind
  offset := offset + 1
  if value then
    b ← b.store offset trueBool
  else
    b ← b.store offset falseBool
  return { b with offset := offset + 1 }

/-- v2/encode.go 369-376. -/
def encodeUint8 (rt : Runtime) (b : Buffer) (value : BitVec 8) : Go Buffer := do
  let mut b ← b.Grow rt (uint8Size)
  let mut offset := b.offset
  b ← b.store offset Uint8RawKind
  offset := offset + 1
  b ← b.store offset value
  return { b with offset := offset + 1 }

/-- v2/encode.go 378-408. -/
def encodeUint16 (rt : Runtime) (b : Buffer) (value : BitVec 16) : Go Buffer := do
  let mut b ← b.Grow rt (uint16Size)
  let mut offset := b.offset
  let mut value := value
  b ← b.store offset Uint16RawKind
  offset := offset + 1
  if value < continuation then
    b ← b.store offset (value.setWidth 8)
    b := { b with offset := offset + 1 }
  else
    b ← b.store offset ((value &&& (continuation - 1)).setWidth 8 ||| continuation)
    offset := offset + 1
    value := value >>> 7
    if value < continuation then
      b ← b.store offset (value.setWidth 8)
      b := { b with offset := offset + 1 }
    else
      b ← b.store offset ((value &&& (continuation - 1)).setWidth 8 ||| continuation)
      offset := offset + 1
      value := value >>> 7
      if value < continuation then
        b ← b.store offset (value.setWidth 8)
        b := { b with offset := offset + 1 }
      else
        b ← b.store offset ((value &&& (continuation - 1)).setWidth 8 ||| continuation)
        offset := offset + 1
        b ← b.store offset ((value >>> 7).setWidth 8)
        b := { b with offset := offset + 1 }
  return b

/-- v2/encode.go 410-456. -/
def encodeUint32 (rt : Runtime) (b : Buffer) (value : BitVec 32) : Go Buffer := do
  let mut b ← b.Grow rt (uint32Size)
  let mut offset := b.offset
  let mut value := value
  b ← b.store offset Uint32RawKind
  offset := offset + 1
  if value < continuation then
    b ← b.store offset (value.setWidth 8)
    b := { b with offset := offset + 1 }
  else
    b ← b.store offset ((value &&& (continuation - 1)).setWidth 8 ||| continuation)
    offset := offset + 1
    value := value >>> 7
    if value < continuation then
      b ← b.store offset (value.setWidth 8)
      b := { b with offset := offset + 1 }
    else
      b ← b.store offset ((value &&& (continuation - 1)).setWidth 8 ||| continuation)
      offset := offset + 1
      value := value >>> 7
      if value < continuation then
        b ← b.store offset (value.setWidth 8)
        b := { b with offset := offset + 1 }
      else
        b ← b.store offset ((value &&& (continuation - 1)).setWidth 8 ||| continuation)
        offset := offset + 1
        value := value >>> 7
        if value < continuation then
          b ← b.store offset (value.setWidth 8)
          b := { b with offset := offset + 1 }
        else
          b ← b.store offset ((value &&& (continuation - 1)).setWidth 8 ||| continuation)
          offset := offset + 1
          value := value >>> 7
          if value < continuation then
            b ← b.store offset (value.setWidth 8)
            b := { b with offset := offset + 1 }
          else
            b ← b.store offset ((value &&& (continuation - 1)).setWidth 8 ||| continuation)
            offset := offset + 1
            b ← b.store offset ((value >>> 7).setWidth 8)
            b := { b with offset := offset + 1 }
  return b

/-- v2/encode.go 458-536. -/
def encodeUint64 (rt : Runtime) (b : Buffer) (value : BitVec 64) : Go Buffer := do
  let mut b ← b.Grow rt (uint64Size)
  let mut offset := b.offset
  let mut value := value
  b ← b.store offset Uint64RawKind
  offset := offset + 1
  if value < continuation then
    b ← b.store offset (value.setWidth 8)
    b := { b with offset := offset + 1 }
  else
    b ← b.store offset ((value &&& (continuation - 1)).setWidth 8 ||| continuation)
    offset := offset + 1
    value := value >>> 7
    if value < continuation then
      b ← b.store offset (value.setWidth 8)
      b := { b with offset := offset + 1 }
    else
      b ← b.store offset ((value &&& (continuation - 1)).setWidth 8 ||| continuation)
      offset := offset + 1
      value := value >>> 7
      if value < continuation then
        b ← b.store offset (value.setWidth 8)
        b := { b with offset := offset + 1 }
      else
        b ← b.store offset ((value &&& (continuation - 1)).setWidth 8 ||| continuation)
        offset := offset + 1
        value := value >>> 7
        if value < continuation then
          b ← b.store offset (value.setWidth 8)
          b := { b with offset := offset + 1 }
        else
          b ← b.store offset ((value &&& (continuation - 1)).setWidth 8 ||| continuation)
          offset := offset + 1
          value := value >>> 7
          if value < continuation then
            b ← b.store offset (value.setWidth 8)
            b := { b with offset := offset + 1 }
          else
            b ← b.store offset ((value &&& (continuation - 1)).setWidth 8 ||| continuation)
            offset := offset + 1
            value := value >>> 7
            if value < continuation then
              b ← b.store offset (value.setWidth 8)
              b := { b with offset := offset + 1 }
            else
              b ← b.store offset ((value &&& (continuation - 1)).setWidth 8 ||| continuation)
              offset := offset + 1
              value := value >>> 7
              if value < continuation then
                b ← b.store offset (value.setWidth 8)
                b := { b with offset := offset + 1 }
              else
                b ← b.store offset ((value &&& (continuation - 1)).setWidth 8 ||| continuation)
                offset := offset + 1
                value := value >>> 7
                if value < continuation then
                  b ← b.store offset (value.setWidth 8)
                  b := { b with offset := offset + 1 }
                else
                  b ← b.store offset ((value &&& (continuation - 1)).setWidth 8 ||| continuation)
                  offset := offset + 1
                  value := value >>> 7
                  if value < continuation then
                    b ← b.store offset (value.setWidth 8)
                    b := { b with offset := offset + 1 }
                  else
                    b ← b.store offset ((value &&& (continuation - 1)).setWidth 8 ||| continuation)
                    offset := offset + 1
                    b ← b.store offset ((value >>> 7).setWidth 8)
                    b := { b with offset := offset + 1 }
  return b

/-- v2/encode.go 538-588. -/
def encodeInt32 (rt : Runtime) (b : Buffer) (value : BitVec 32) : Go Buffer := do
  let mut b ← b.Grow rt (uint32Size)
  let mut castValue := value <<< 1
  if value.slt 0#32 then
    castValue := ~~~castValue
  let mut offset := b.offset
  b ← b.store offset Int32RawKind
  offset := offset + 1
  if castValue < continuation then
    b ← b.store offset (castValue.setWidth 8)
    b := { b with offset := offset + 1 }
  else
    b ← b.store offset ((castValue &&& (continuation - 1)).setWidth 8 ||| continuation)
    offset := offset + 1
    castValue := castValue >>> 7
    if castValue < continuation then
      b ← b.store offset (castValue.setWidth 8)
      b := { b with offset := offset + 1 }
    else
      b ← b.store offset ((castValue &&& (continuation - 1)).setWidth 8 ||| continuation)
      offset := offset + 1
      castValue := castValue >>> 7
      if castValue < continuation then
        b ← b.store offset (castValue.setWidth 8)
        b := { b with offset := offset + 1 }
      else
        b ← b.store offset ((castValue &&& (continuation - 1)).setWidth 8 ||| continuation)
        offset := offset + 1
        castValue := castValue >>> 7
        if castValue < continuation then
          b ← b.store offset (castValue.setWidth 8)
          b := { b with offset := offset + 1 }
        else
          b ← b.store offset ((castValue &&& (continuation - 1)).setWidth 8 ||| continuation)
          offset := offset + 1
          castValue := castValue >>> 7
          if castValue < continuation then
            b ← b.store offset (castValue.setWidth 8)
            b := { b with offset := offset + 1 }
          else
            b ← b.store offset ((castValue &&& (continuation - 1)).setWidth 8 ||| continuation)
            offset := offset + 1
            b ← b.store offset ((castValue >>> 7).setWidth 8)
            b := { b with offset := offset + 1 }
  return b

/-- v2/encode.go 590-672. -/
def encodeInt64 (rt : Runtime) (b : Buffer) (value : BitVec 64) : Go Buffer := do
  let mut b ← b.Grow rt (uint64Size)
  let mut castValue := value <<< 1
  if value.slt 0#64 then
    castValue := ~~~castValue
  let mut offset := b.offset
  b ← b.store offset Int64RawKind
  offset := offset + 1
  if castValue < continuation then
    b ← b.store offset (castValue.setWidth 8)
    b := { b with offset := offset + 1 }
  else
    b ← b.store offset ((castValue &&& (continuation - 1)).setWidth 8 ||| continuation)
    offset := offset + 1
    castValue := castValue >>> 7
    if castValue < continuation then
      b ← b.store offset (castValue.setWidth 8)
      b := { b with offset := offset + 1 }
    else
      b ← b.store offset ((castValue &&& (continuation - 1)).setWidth 8 ||| continuation)
      offset := offset + 1
      castValue := castValue >>> 7
      if castValue < continuation then
        b ← b.store offset (castValue.setWidth 8)
        b := { b with offset := offset + 1 }
      else
        b ← b.store offset ((castValue &&& (continuation - 1)).setWidth 8 ||| continuation)
        offset := offset + 1
        castValue := castValue >>> 7
        if castValue < continuation then
          b ← b.store offset (castValue.setWidth 8)
          b := { b with offset := offset + 1 }
        else
          b ← b.store offset ((castValue &&& (continuation - 1)).setWidth 8 ||| continuation)
          offset := offset + 1
          castValue := castValue >>> 7
          if castValue < continuation then
            b ← b.store offset (castValue.setWidth 8)
            b := { b with offset := offset + 1 }
          else
            b ← b.store offset ((castValue &&& (continuation - 1)).setWidth 8 ||| continuation)
            offset := offset + 1
            castValue := castValue >>> 7
            if castValue < continuation then
              b ← b.store offset (castValue.setWidth 8)
              b := { b with offset := offset + 1 }
            else
              b ← b.store offset ((castValue &&& (continuation - 1)).setWidth 8 ||| continuation)
              offset := offset + 1
              castValue := castValue >>> 7
              if castValue < continuation then
                b ← b.store offset (castValue.setWidth 8)
                b := { b with offset := offset + 1 }
              else
                b ← b.store offset ((castValue &&& (continuation - 1)).setWidth 8 ||| continuation)
                offset := offset + 1
                castValue := castValue >>> 7
                if castValue < continuation then
                  b ← b.store offset (castValue.setWidth 8)
                  b := { b with offset := offset + 1 }
                else
                  b ← b.store offset ((castValue &&& (continuation - 1)).setWidth 8 ||| continuation)
                  offset := offset + 1
                  castValue := castValue >>> 7
                  if castValue < continuation then
                    b ← b.store offset (castValue.setWidth 8)
                    b := { b with offset := offset + 1 }
                  else
                    b ← b.store offset ((castValue &&& (continuation - 1)).setWidth 8 ||| continuation)
                    offset := offset + 1
                    b ← b.store offset ((castValue >>> 7).setWidth 8)
                    b := { b with offset := offset + 1 }
  return b

/-- v2/encode.go 674-688. The argument is `math.Float32bits(value)`. -/
def encodeFloat32 (rt : Runtime) (b : Buffer) (castValue : BitVec 32) : Go Buffer := do
  let mut b ← b.Grow rt (float32Size)
  let mut offset := b.offset
  b ← b.store offset Float32RawKind
  offset := offset + 1
  b ← b.store offset ((castValue >>> 24).setWidth 8)
  offset := offset + 1
  b ← b.store offset ((castValue >>> 16).setWidth 8)
  offset := offset + 1
  b ← b.store offset ((castValue >>> 8).setWidth 8)
  offset := offset + 1
  b ← b.store offset (castValue.setWidth 8)
  return { b with offset := offset + 1 }

/-- v2/encode.go 690-712. The argument is `math.Float64bits(value)`. -/
def encodeFloat64 (rt : Runtime) (b : Buffer) (castValue : BitVec 64) : Go Buffer := do
  let mut b ← b.Grow rt (float64Size)
  let mut offset := b.offset
  b ← b.store offset Float64RawKind
  offset := offset + 1
  b ← b.store offset ((castValue >>> 56).setWidth 8)
  offset := offset + 1
  b ← b.store offset ((castValue >>> 48).setWidth 8)
  offset := offset + 1
  b ← b.store offset ((castValue >>> 40).setWidth 8)
  offset := offset + 1
  b ← b.store offset ((castValue >>> 32).setWidth 8)
  offset := offset + 1
  b ← b.store offset ((castValue >>> 24).setWidth 8)
  offset := offset + 1
  b ← b.store offset ((castValue >>> 16).setWidth 8)
  offset := offset + 1
  b ← b.store offset ((castValue >>> 8).setWidth 8)
  offset := offset + 1
  b ← b.store offset (castValue.setWidth 8)
  return { b with offset := offset + 1 }

end GoV2
