import Verif.GoV2.Heap
import Verif.GoV2.Encode
import Verif.Spec.Wire

/-!
# /repo/v2/encode.go over memory

The statements of `Encode.lean`, with buffers and the argument of `Bytes` as references (`Heap.lean`).
-/

namespace GoV2.Heap

/-- v2/encode.go 85-89. -/
def encodeNil (rt : Runtime) (b : HBuffer) : H HBuffer := do
  let mut b ← b.Grow rt nilSize
  b ← b.store b.offset NilRawKind
  return { b with offset := b.offset + 1 }

/-- v2/encode.go 91-143. -/
def encodeMap (rt : Runtime) (b : HBuffer) (size : BitVec 32) (keyKind valueKind : Kind) : H HBuffer := do
  let mut b ← b.Grow rt (mapSize)
  let mut offset := b.offset
  let mut size := size
  b ← b.store offset MapRawKind
  offset := offset + 1
  b ← b.store offset keyKind
  offset := offset + 1
  b ← b.store offset valueKind
  offset := offset + 1
  b ← b.store offset Uint32RawKind
  offset := offset + 1
  if size < continuation then
    b ← b.store offset (size.setWidth 8)
    b := { b with offset := offset + 1 }
  else
    b ← b.store offset ((size &&& (continuation - 1)).setWidth 8 ||| continuation)
    offset := offset + 1
    size := size >>> 7
    if size < continuation then
      b ← b.store offset (size.setWidth 8)
      b := { b with offset := offset + 1 }
    else
      b ← b.store offset ((size &&& (continuation - 1)).setWidth 8 ||| continuation)
      offset := offset + 1
      size := size >>> 7
      if size < continuation then
        b ← b.store offset (size.setWidth 8)
        b := { b with offset := offset + 1 }
      else
        b ← b.store offset ((size &&& (continuation - 1)).setWidth 8 ||| continuation)
        offset := offset + 1
        size := size >>> 7
        if size < continuation then
          b ← b.store offset (size.setWidth 8)
          b := { b with offset := offset + 1 }
        else
          b ← b.store offset ((size &&& (continuation - 1)).setWidth 8 ||| continuation)
          offset := offset + 1
          size := size >>> 7
          if size < continuation then
            b ← b.store offset (size.setWidth 8)
            b := { b with offset := offset + 1 }
          else
            b ← b.store offset ((size &&& (continuation - 1)).setWidth 8 ||| continuation)
            offset := offset + 1
            b ← b.store offset ((size >>> 7).setWidth 8)
            b := { b with offset := offset + 1 }
  return b

/-- v2/encode.go 145-195. -/
def encodeSlice (rt : Runtime) (b : HBuffer) (size : BitVec 32) (kind : Kind) : H HBuffer := do
  let mut b ← b.Grow rt (sliceSize)
  let mut offset := b.offset
  let mut size := size
  b ← b.store offset SliceRawKind
  offset := offset + 1
  b ← b.store offset kind
  offset := offset + 1
  b ← b.store offset Uint32RawKind
  offset := offset + 1
  if size < continuation then
    b ← b.store offset (size.setWidth 8)
    b := { b with offset := offset + 1 }
  else
    b ← b.store offset ((size &&& (continuation - 1)).setWidth 8 ||| continuation)
    offset := offset + 1
    size := size >>> 7
    if size < continuation then
      b ← b.store offset (size.setWidth 8)
      b := { b with offset := offset + 1 }
    else
      b ← b.store offset ((size &&& (continuation - 1)).setWidth 8 ||| continuation)
      offset := offset + 1
      size := size >>> 7
      if size < continuation then
        b ← b.store offset (size.setWidth 8)
        b := { b with offset := offset + 1 }
      else
        b ← b.store offset ((size &&& (continuation - 1)).setWidth 8 ||| continuation)
        offset := offset + 1
        size := size >>> 7
        if size < continuation then
          b ← b.store offset (size.setWidth 8)
          b := { b with offset := offset + 1 }
        else
          b ← b.store offset ((size &&& (continuation - 1)).setWidth 8 ||| continuation)
          offset := offset + 1
          size := size >>> 7
          if size < continuation then
            b ← b.store offset (size.setWidth 8)
            b := { b with offset := offset + 1 }
          else
            b ← b.store offset ((size &&& (continuation - 1)).setWidth 8 ||| continuation)
            offset := offset + 1
            b ← b.store offset ((size >>> 7).setWidth 8)
            b := { b with offset := offset + 1 }
  return b

/-- v2/encode.go 197-246. Note the missing `offset++` in the fifth-byte branch (source line 235). -/
def encodeBytes (rt : Runtime) (b : HBuffer) (value : Slice) : H HBuffer := do
  let mut b ← b.Grow rt (bytesSize + value.len)
  let mut castValue := BitVec.ofNat 32 value.len
  let mut offset := b.offset
  b ← b.store offset BytesRawKind
  offset := offset + 1
  b ← b.store offset Uint32RawKind
  offset := offset + 1
  if castValue < continuation then
    b ← b.store offset (castValue.setWidth 8)
    offset := offset + 1
  else
    b ← b.store offset ((castValue &&& (continuation - 1)).setWidth 8 ||| continuation)
    offset := offset + 1
    castValue := castValue >>> 7
    if castValue < continuation then
      b ← b.store offset (castValue.setWidth 8)
      offset := offset + 1
    else
      b ← b.store offset ((castValue &&& (continuation - 1)).setWidth 8 ||| continuation)
      offset := offset + 1
      castValue := castValue >>> 7
      if castValue < continuation then
        b ← b.store offset (castValue.setWidth 8)
        offset := offset + 1
      else
        b ← b.store offset ((castValue &&& (continuation - 1)).setWidth 8 ||| continuation)
        offset := offset + 1
        castValue := castValue >>> 7
        if castValue < continuation then
          b ← b.store offset (castValue.setWidth 8)
          offset := offset + 1
        else
          b ← b.store offset ((castValue &&& (continuation - 1)).setWidth 8 ||| continuation)
          offset := offset + 1
          castValue := castValue >>> 7
          if castValue < continuation then
            b ← b.store offset (castValue.setWidth 8)
            -- (the source has no `offset++` here)
          else
            b ← b.store offset ((castValue &&& (continuation - 1)).setWidth 8 ||| continuation)
            offset := offset + 1
            b ← b.store offset ((castValue >>> 7).setWidth 8)
            offset := offset + 1
  b.copySlice offset value

/-- v2/encode.go 247-298. `unsafe.Slice(unsafe.StringData(value), len(value))` is the string's bytes. -/
def encodeString (rt : Runtime) (b : HBuffer) (value : Bytes) : H HBuffer := do
  let mut b ← b.Grow rt (stringSize + value.length)
  let mut castValue := BitVec.ofNat 32 value.length
  let mut offset := b.offset
  b ← b.store offset StringRawKind
  offset := offset + 1
  b ← b.store offset Uint32RawKind
  offset := offset + 1
  if castValue < continuation then
    b ← b.store offset (castValue.setWidth 8)
    offset := offset + 1
  else
    b ← b.store offset ((castValue &&& (continuation - 1)).setWidth 8 ||| continuation)
    offset := offset + 1
    castValue := castValue >>> 7
    if castValue < continuation then
      b ← b.store offset (castValue.setWidth 8)
      offset := offset + 1
    else
      b ← b.store offset ((castValue &&& (continuation - 1)).setWidth 8 ||| continuation)
      offset := offset + 1
      castValue := castValue >>> 7
      if castValue < continuation then
        b ← b.store offset (castValue.setWidth 8)
        offset := offset + 1
      else
        b ← b.store offset ((castValue &&& (continuation - 1)).setWidth 8 ||| continuation)
        offset := offset + 1
        castValue := castValue >>> 7
        if castValue < continuation then
          b ← b.store offset (castValue.setWidth 8)
          offset := offset + 1
        else
          b ← b.store offset ((castValue &&& (continuation - 1)).setWidth 8 ||| continuation)
          offset := offset + 1
          castValue := castValue >>> 7
          if castValue < continuation then
            b ← b.store offset (castValue.setWidth 8)
            offset := offset + 1
          else
            b ← b.store offset ((castValue &&& (continuation - 1)).setWidth 8 ||| continuation)
            offset := offset + 1
            b ← b.store offset ((castValue >>> 7).setWidth 8)
            offset := offset + 1
  b.copyString offset value

/-- v2/encode.go 300-354. The part after `errString := err.Error()`. -/
def encodeErrorMessage (rt : Runtime) (b : HBuffer) (value : Bytes) : H HBuffer := do
  let mut b ← b.Grow rt (errorSize + value.length)
  let mut castValue := BitVec.ofNat 32 value.length
  let mut offset := b.offset
  b ← b.store offset ErrorRawKind
  offset := offset + 1
  b ← b.store offset StringRawKind
  offset := offset + 1
  b ← b.store offset Uint32RawKind
  offset := offset + 1
  if castValue < continuation then
    b ← b.store offset (castValue.setWidth 8)
    offset := offset + 1
  else
    b ← b.store offset ((castValue &&& (continuation - 1)).setWidth 8 ||| continuation)
    offset := offset + 1
    castValue := castValue >>> 7
    if castValue < continuation then
      b ← b.store offset (castValue.setWidth 8)
      offset := offset + 1
    else
      b ← b.store offset ((castValue &&& (continuation - 1)).setWidth 8 ||| continuation)
      offset := offset + 1
      castValue := castValue >>> 7
      if castValue < continuation then
        b ← b.store offset (castValue.setWidth 8)
        offset := offset + 1
      else
        b ← b.store offset ((castValue &&& (continuation - 1)).setWidth 8 ||| continuation)
        offset := offset + 1
        castValue := castValue >>> 7
        if castValue < continuation then
          b ← b.store offset (castValue.setWidth 8)
          offset := offset + 1
        else
          b ← b.store offset ((castValue &&& (continuation - 1)).setWidth 8 ||| continuation)
          offset := offset + 1
          castValue := castValue >>> 7
          if castValue < continuation then
            b ← b.store offset (castValue.setWidth 8)
            offset := offset + 1
          else
            b ← b.store offset ((castValue &&& (continuation - 1)).setWidth 8 ||| continuation)
            offset := offset + 1
            b ← b.store offset ((castValue >>> 7).setWidth 8)
            offset := offset + 1
  b.copyString offset value

/-- v2/encode.go 300-354.  `err.Error()` on a nil interface panics; a non-nil error is
represented by its message. -/
def encodeError (rt : Runtime) (b : HBuffer) (err : Option Bytes) : H HBuffer :=
  match err with
  | none => H.panic
  | some errString => encodeErrorMessage rt b errString

/-- v2/encode.go 356-367. -/
def encodeBool (rt : Runtime) (b : HBuffer) (value : Bool) : H HBuffer := do
  let mut b ← b.Grow rt (boolSize)
  let mut offset := b.offset
  b ← b.store offset BoolRawKind
  offset := offset + 1
  if value then
    b ← b.store offset trueBool
  else
    b ← b.store offset falseBool
  return { b with offset := offset + 1 }

/-- v2/encode.go 369-376. -/
def encodeUint8 (rt : Runtime) (b : HBuffer) (value : BitVec 8) : H HBuffer := do
  let mut b ← b.Grow rt (uint8Size)
  let mut offset := b.offset
  b ← b.store offset Uint8RawKind
  offset := offset + 1
  b ← b.store offset value
  return { b with offset := offset + 1 }

/-- v2/encode.go 378-408. -/
def encodeUint16 (rt : Runtime) (b : HBuffer) (value : BitVec 16) : H HBuffer := do
  let mut b ← b.Grow rt (uint16Size)
  let mut offset := b.offset
  let mut value := value
  b ← b.store offset Uint16RawKind
  offset := offset + 1
  if value < continuation then
    b ← b.store offset (value.setWidth 8)
    b := { b with offset := offset + 1 }
  else
    b ← b.store offset ((value &&& (continuation - 1)).setWidth 8 ||| continuation)
    offset := offset + 1
    value := value >>> 7
    if value < continuation then
      b ← b.store offset (value.setWidth 8)
      b := { b with offset := offset + 1 }
    else
      b ← b.store offset ((value &&& (continuation - 1)).setWidth 8 ||| continuation)
      offset := offset + 1
      value := value >>> 7
      if value < continuation then
        b ← b.store offset (value.setWidth 8)
        b := { b with offset := offset + 1 }
      else
        b ← b.store offset ((value &&& (continuation - 1)).setWidth 8 ||| continuation)
        offset := offset + 1
        b ← b.store offset ((value >>> 7).setWidth 8)
        b := { b with offset := offset + 1 }
  return b

/-- v2/encode.go 410-456. -/
def encodeUint32 (rt : Runtime) (b : HBuffer) (value : BitVec 32) : H HBuffer := do
  let mut b ← b.Grow rt (uint32Size)
  let mut offset := b.offset
  let mut value := value
  b ← b.store offset Uint32RawKind
  offset := offset + 1
  if value < continuation then
    b ← b.store offset (value.setWidth 8)
    b := { b with offset := offset + 1 }
  else
    b ← b.store offset ((value &&& (continuation - 1)).setWidth 8 ||| continuation)
    offset := offset + 1
    value := value >>> 7
    if value < continuation then
      b ← b.store offset (value.setWidth 8)
      b := { b with offset := offset + 1 }
    else
      b ← b.store offset ((value &&& (continuation - 1)).setWidth 8 ||| continuation)
      offset := offset + 1
      value := value >>> 7
      if value < continuation then
        b ← b.store offset (value.setWidth 8)
        b := { b with offset := offset + 1 }
      else
        b ← b.store offset ((value &&& (continuation - 1)).setWidth 8 ||| continuation)
        offset := offset + 1
        value := value >>> 7
        if value < continuation then
          b ← b.store offset (value.setWidth 8)
          b := { b with offset := offset + 1 }
        else
          b ← b.store offset ((value &&& (continuation - 1)).setWidth 8 ||| continuation)
          offset := offset + 1
          value := value >>> 7
          if value < continuation then
            b ← b.store offset (value.setWidth 8)
            b := { b with offset := offset + 1 }
          else
            b ← b.store offset ((value &&& (continuation - 1)).setWidth 8 ||| continuation)
            offset := offset + 1
            b ← b.store offset ((value >>> 7).setWidth 8)
            b := { b with offset := offset + 1 }
  return b

/-- v2/encode.go 458-536. -/
def encodeUint64 (rt : Runtime) (b : HBuffer) (value : BitVec 64) : H HBuffer := do
  let mut b ← b.Grow rt (uint64Size)
  let mut offset := b.offset
  let mut value := value
  b ← b.store offset Uint64RawKind
  offset := offset + 1
  if value < continuation then
    b ← b.store offset (value.setWidth 8)
    b := { b with offset := offset + 1 }
  else
    b ← b.store offset ((value &&& (continuation - 1)).setWidth 8 ||| continuation)
    offset := offset + 1
    value := value >>> 7
    if value < continuation then
      b ← b.store offset (value.setWidth 8)
      b := { b with offset := offset + 1 }
    else
      b ← b.store offset ((value &&& (continuation - 1)).setWidth 8 ||| continuation)
      offset := offset + 1
      value := value >>> 7
      if value < continuation then
        b ← b.store offset (value.setWidth 8)
        b := { b with offset := offset + 1 }
      else
        b ← b.store offset ((value &&& (continuation - 1)).setWidth 8 ||| continuation)
        offset := offset + 1
        value := value >>> 7
        if value < continuation then
          b ← b.store offset (value.setWidth 8)
          b := { b with offset := offset + 1 }
        else
          b ← b.store offset ((value &&& (continuation - 1)).setWidth 8 ||| continuation)
          offset := offset + 1
          value := value >>> 7
          if value < continuation then
            b ← b.store offset (value.setWidth 8)
            b := { b with offset := offset + 1 }
          else
            b ← b.store offset ((value &&& (continuation - 1)).setWidth 8 ||| continuation)
            offset := offset + 1
            value := value >>> 7
            if value < continuation then
              b ← b.store offset (value.setWidth 8)
              b := { b with offset := offset + 1 }
            else
              b ← b.store offset ((value &&& (continuation - 1)).setWidth 8 ||| continuation)
              offset := offset + 1
              value := value >>> 7
              if value < continuation then
                b ← b.store offset (value.setWidth 8)
                b := { b with offset := offset + 1 }
              else
                b ← b.store offset ((value &&& (continuation - 1)).setWidth 8 ||| continuation)
                offset := offset + 1
                value := value >>> 7
                if value < continuation then
                  b ← b.store offset (value.setWidth 8)
                  b := { b with offset := offset + 1 }
                else
                  b ← b.store offset ((value &&& (continuation - 1)).setWidth 8 ||| continuation)
                  offset := offset + 1
                  value := value >>> 7
                  if value < continuation then
                    b ← b.store offset (value.setWidth 8)
                    b := { b with offset := offset + 1 }
                  else
                    b ← b.store offset ((value &&& (continuation - 1)).setWidth 8 ||| continuation)
                    offset := offset + 1
                    b ← b.store offset ((value >>> 7).setWidth 8)
                    b := { b with offset := offset + 1 }
  return b

/-- v2/encode.go 538-588. -/
def encodeInt32 (rt : Runtime) (b : HBuffer) (value : BitVec 32) : H HBuffer := do
  let mut b ← b.Grow rt (uint32Size)
  let mut castValue := value <<< 1
  if value.slt 0#32 then
    castValue := ~~~castValue
  let mut offset := b.offset
  b ← b.store offset Int32RawKind
  offset := offset + 1
  if castValue < continuation then
    b ← b.store offset (castValue.setWidth 8)
    b := { b with offset := offset + 1 }
  else
    b ← b.store offset ((castValue &&& (continuation - 1)).setWidth 8 ||| continuation)
    offset := offset + 1
    castValue := castValue >>> 7
    if castValue < continuation then
      b ← b.store offset (castValue.setWidth 8)
      b := { b with offset := offset + 1 }
    else
      b ← b.store offset ((castValue &&& (continuation - 1)).setWidth 8 ||| continuation)
      offset := offset + 1
      castValue := castValue >>> 7
      if castValue < continuation then
        b ← b.store offset (castValue.setWidth 8)
        b := { b with offset := offset + 1 }
      else
        b ← b.store offset ((castValue &&& (continuation - 1)).setWidth 8 ||| continuation)
        offset := offset + 1
        castValue := castValue >>> 7
        if castValue < continuation then
          b ← b.store offset (castValue.setWidth 8)
          b := { b with offset := offset + 1 }
        else
          b ← b.store offset ((castValue &&& (continuation - 1)).setWidth 8 ||| continuation)
          offset := offset + 1
          castValue := castValue >>> 7
          if castValue < continuation then
            b ← b.store offset (castValue.setWidth 8)
            b := { b with offset := offset + 1 }
          else
            b ← b.store offset ((castValue &&& (continuation - 1)).setWidth 8 ||| continuation)
            offset := offset + 1
            b ← b.store offset ((castValue >>> 7).setWidth 8)
            b := { b with offset := offset + 1 }
  return b

/-- v2/encode.go 590-672. -/
def encodeInt64 (rt : Runtime) (b : HBuffer) (value : BitVec 64) : H HBuffer := do
  let mut b ← b.Grow rt (uint64Size)
  let mut castValue := value <<< 1
  if value.slt 0#64 then
    castValue := ~~~castValue
  let mut offset := b.offset
  b ← b.store offset Int64RawKind
  offset := offset + 1
  if castValue < continuation then
    b ← b.store offset (castValue.setWidth 8)
    b := { b with offset := offset + 1 }
  else
    b ← b.store offset ((castValue &&& (continuation - 1)).setWidth 8 ||| continuation)
    offset := offset + 1
    castValue := castValue >>> 7
    if castValue < continuation then
      b ← b.store offset (castValue.setWidth 8)
      b := { b with offset := offset + 1 }
    else
      b ← b.store offset ((castValue &&& (continuation - 1)).setWidth 8 ||| continuation)
      offset := offset + 1
      castValue := castValue >>> 7
      if castValue < continuation then
        b ← b.store offset (castValue.setWidth 8)
        b := { b with offset := offset + 1 }
      else
        b ← b.store offset ((castValue &&& (continuation - 1)).setWidth 8 ||| continuation)
        offset := offset + 1
        castValue := castValue >>> 7
        if castValue < continuation then
          b ← b.store offset (castValue.setWidth 8)
          b := { b with offset := offset + 1 }
        else
          b ← b.store offset ((castValue &&& (continuation - 1)).setWidth 8 ||| continuation)
          offset := offset + 1
          castValue := castValue >>> 7
          if castValue < continuation then
            b ← b.store offset (castValue.setWidth 8)
            b := { b with offset := offset + 1 }
          else
            b ← b.store offset ((castValue &&& (continuation - 1)).setWidth 8 ||| continuation)
            offset := offset + 1
            castValue := castValue >>> 7
            if castValue < continuation then
              b ← b.store offset (castValue.setWidth 8)
              b := { b with offset := offset + 1 }
            else
              b ← b.store offset ((castValue &&& (continuation - 1)).setWidth 8 ||| continuation)
              offset := offset + 1
              castValue := castValue >>> 7
              if castValue < continuation then
                b ← b.store offset (castValue.setWidth 8)
                b := { b with offset := offset + 1 }
              else
                b ← b.store offset ((castValue &&& (continuation - 1)).setWidth 8 ||| continuation)
                offset := offset + 1
                castValue := castValue >>> 7
                if castValue < continuation then
                  b ← b.store offset (castValue.setWidth 8)
                  b := { b with offset := offset + 1 }
                else
                  b ← b.store offset ((castValue &&& (continuation - 1)).setWidth 8 ||| continuation)
                  offset := offset + 1
                  castValue := castValue >>> 7
                  if castValue < continuation then
                    b ← b.store offset (castValue.setWidth 8)
                    b := { b with offset := offset + 1 }
                  else
                    b ← b.store offset ((castValue &&& (continuation - 1)).setWidth 8 ||| continuation)
                    offset := offset + 1
                    b ← b.store offset ((castValue >>> 7).setWidth 8)
                    b := { b with offset := offset + 1 }
  return b

/-- v2/encode.go 674-688. The argument is `math.Float32bits(value)`. -/
def encodeFloat32 (rt : Runtime) (b : HBuffer) (castValue : BitVec 32) : H HBuffer := do
  let mut b ← b.Grow rt (float32Size)
  let mut offset := b.offset
  b ← b.store offset Float32RawKind
  offset := offset + 1
  b ← b.store offset ((castValue >>> 24).setWidth 8)
  offset := offset + 1
  b ← b.store offset ((castValue >>> 16).setWidth 8)
  offset := offset + 1
  b ← b.store offset ((castValue >>> 8).setWidth 8)
  offset := offset + 1
  b ← b.store offset (castValue.setWidth 8)
  return { b with offset := offset + 1 }

/-- v2/encode.go 690-712. The argument is `math.Float64bits(value)`. -/
def encodeFloat64 (rt : Runtime) (b : HBuffer) (castValue : BitVec 64) : H HBuffer := do
  let mut b ← b.Grow rt (float64Size)
  let mut offset := b.offset
  b ← b.store offset Float64RawKind
  offset := offset + 1
  b ← b.store offset ((castValue >>> 56).setWidth 8)
  offset := offset + 1
  b ← b.store offset ((castValue >>> 48).setWidth 8)
  offset := offset + 1
  b ← b.store offset ((castValue >>> 40).setWidth 8)
  offset := offset + 1
  b ← b.store offset ((castValue >>> 32).setWidth 8)
  offset := offset + 1
  b ← b.store offset ((castValue >>> 24).setWidth 8)
  offset := offset + 1
  b ← b.store offset ((castValue >>> 16).setWidth 8)
  offset := offset + 1
  b ← b.store offset ((castValue >>> 8).setWidth 8)
  offset := offset + 1
  b ← b.store offset (castValue.setWidth 8)
  return { b with offset := offset + 1 }

end GoV2.Heap
