import Verif.GoV2.Heap
import Verif.GoV2.Decode

/-!
# /repo/v2/decode.go over memory

The statements of `Decode.lean`, with the input and the scratch slice of `Bytes` as references (`Heap.lean`).
-/

namespace GoV2.Heap

/-- `b[i:]`: panics when `i > len(b)`. -/
def Slice.sliceFrom (s : Slice) (i : Nat) : H Slice := s.slice i s.len

/-- v2/decode.go 49-54. -/
def decodeNil (b : Slice) : H (Slice × Bool) := do
  if b.len > 0 then
    if (← b.at 0) = NilRawKind then
      return (← b.sliceFrom 1, true)
  return (b, false)

/-- v2/decode.go 195-227. -/
def decodeUint32 (b : Slice) : H (Slice × BitVec 32 × Option Err) := do
  if b.len > 1 then
    if (← b.at 0) = Uint32RawKind then
      let mut cb := (← b.at 1).setWidth 32
      if cb < continuation then
        return (← b.sliceFrom 2, cb, none)
      let mut x := cb &&& (continuation - 1)
      cb := (← b.at 2).setWidth 32
      if cb < continuation then
        return (← b.sliceFrom 3, x ||| (cb <<< 7), none)
      x := x ||| ((cb &&& (continuation - 1)) <<< 7)
      cb := (← b.at 3).setWidth 32
      if cb < continuation then
        return (← b.sliceFrom 4, x ||| (cb <<< 14), none)
      x := x ||| ((cb &&& (continuation - 1)) <<< 14)
      cb := (← b.at 4).setWidth 32
      if cb < continuation then
        return (← b.sliceFrom 5, x ||| (cb <<< 21), none)
      x := x ||| ((cb &&& (continuation - 1)) <<< 21)
      cb := (← b.at 5).setWidth 32
      if cb < continuation then
        return (← b.sliceFrom 6, x ||| (cb <<< 28), none)
  return (b, 0, some .InvalidUint32)

/-- v2/decode.go 56-67. -/
def decodeMap (b : Slice) (keyKind valueKind : Kind) : H (Slice × BitVec 32 × Option Err) := do
  if b.len > 3 then
    if (← b.at 0) = MapRawKind then
      if (← b.at 1) = keyKind then
        if (← b.at 2) = valueKind then
          let (b, size, err) ← decodeUint32 (← b.sliceFrom 3)
          if err ≠ none then
            return (b, 0, some .InvalidMap)
          return (b, size, none)
  return (b, 0, some .InvalidMap)

/-- v2/decode.go 69-80. -/
def decodeSlice (b : Slice) (kind : Kind) : H (Slice × BitVec 32 × Option Err) := do
  if b.len > 2 then
    if (← b.at 0) = SliceRawKind then
      if (← b.at 1) = kind then
        let (b, size, err) ← decodeUint32 (← b.sliceFrom 2)
        if err ≠ none then
          return (b, 0, some .InvalidSlice)
        return (b, size, none)
  return (b, 0, some .InvalidSlice)

/-- v2/decode.go 82-124.  The arguments of the `append` are evaluated first, then it runs. -/
def decodeBytes (rt : Runtime) (b : Slice) (ret : Slice) : H (Slice × Slice × Option Err) := do
  if b.len > 2 then
    if (← b.at 0) = BytesRawKind then
      if (← b.at 1) = Uint32RawKind then
        let mut size : Int := 0
        let mut offset : Int := 0
        let mut cb := (← b.at 2).setWidth 32
        if cb < continuation then
          size := cb.toNat
          offset := 3
        else
          let mut x := cb &&& (continuation - 1)
          cb := (← b.at 3).setWidth 32
          if cb < continuation then
            size := (x ||| (cb <<< 7)).toNat
            offset := 4
          else
            x := x ||| ((cb &&& (continuation - 1)) <<< 7)
            cb := (← b.at 4).setWidth 32
            if cb < continuation then
              size := (x ||| (cb <<< 14)).toNat
              offset := 5
            else
              x := x ||| ((cb &&& (continuation - 1)) <<< 14)
              cb := (← b.at 5).setWidth 32
              if cb < continuation then
                size := (x ||| (cb <<< 21)).toNat
                offset := 6
              else
                x := x ||| ((cb &&& (continuation - 1)) <<< 21)
                cb := (← b.at 6).setWidth 32
                if cb < continuation then
                  size := (x ||| (cb <<< 28)).toNat
                  offset := 7
        if (b.len : Int) - offset > size - 1 then
          let rest ← b.sliceFrom (size + offset).toNat
          let ret0 ← ret.slice 0 0
          let payload ← b.slice offset (size + offset)
          let value ← ret0.append rt (← payload.read)
          return (rest, value, none)
  return (b, ⟨0, 0, 0, 0⟩, some .InvalidBytes)

/-- v2/decode.go 126-139. -/
def decodeString (b : Slice) : H (Slice × Bytes × Option Err) := do
  let mut b := b
  if b.len > 1 then
    if (← b.at 0) = StringRawKind then
      let (b', size, err) ← decodeUint32 (← b.sliceFrom 1)
      b := b'
      if err ≠ none then
        return (b, [], some .InvalidString)
      if (b.len : Int) > (size.toNat : Int) - 1 then
        return (← b.sliceFrom size.toNat, ← (← b.slice 0 size.toNat).read, none)
  return (b, [], some .InvalidString)

/-- v2/decode.go 141-152.  A decoded error is `Error(val)`, represented by its message; `none` is a nil
error value. -/
def decodeError (b : Slice) : H (Slice × Option Bytes × Option Err) := do
  if b.len > 1 then
    if (← b.at 0) = ErrorRawKind then
      let (b, val, err) ← decodeString (← b.sliceFrom 1)
      if err ≠ none then
        return (b, none, some .InvalidError)
      return (b, some val, none)
  return (b, none, some .InvalidError)

/-- v2/decode.go 154-164. -/
def decodeBool (b : Slice) : H (Slice × Bool × Option Err) := do
  if b.len > 1 then
    if (← b.at 0) = BoolRawKind then
      let c ← b.at 1
      if c = trueBool then
        return (← b.sliceFrom 2, true, none)
      else if c = falseBool then
        return (← b.sliceFrom 2, false, none)
  return (b, false, some .InvalidBool)

/-- v2/decode.go 166-171. -/
def decodeUint8 (b : Slice) : H (Slice × BitVec 8 × Option Err) := do
  if b.len > 1 then
    if (← b.at 0) = Uint8RawKind then
      return (← b.sliceFrom 2, ← b.at 1, none)
  return (b, 0, some .InvalidUint8)

/-- v2/decode.go 173-193. -/
def decodeUint16 (b : Slice) : H (Slice × BitVec 16 × Option Err) := do
  if b.len > 1 then
    if (← b.at 0) = Uint16RawKind then
      let mut cb := (← b.at 1).setWidth 16
      if cb < continuation then
        return (← b.sliceFrom 2, cb, none)
      let mut x := cb &&& (continuation - 1)
      cb := (← b.at 2).setWidth 16
      if cb < continuation then
        return (← b.sliceFrom 3, x ||| (cb <<< 7), none)
      x := x ||| ((cb &&& (continuation - 1)) <<< 7)
      cb := (← b.at 3).setWidth 16
      if cb < continuation then
        return (← b.sliceFrom 4, x ||| (cb <<< 14), none)
  return (b, 0, some .InvalidUint16)

/-- v2/decode.go 229-291. -/
def decodeUint64 (b : Slice) : H (Slice × BitVec 64 × Option Err) := do
  if b.len > 1 then
    if (← b.at 0) = Uint64RawKind then
      let mut cb := (← b.at 1).setWidth 64
      if cb < continuation then
        return (← b.sliceFrom 2, cb, none)
      let mut x := cb &&& (continuation - 1)
      cb := (← b.at 2).setWidth 64
      if cb < continuation then
        return (← b.sliceFrom 3, x ||| (cb <<< 7), none)
      x := x ||| ((cb &&& (continuation - 1)) <<< 7)
      cb := (← b.at 3).setWidth 64
      if cb < continuation then
        return (← b.sliceFrom 4, x ||| (cb <<< 14), none)
      x := x ||| ((cb &&& (continuation - 1)) <<< 14)
      cb := (← b.at 4).setWidth 64
      if cb < continuation then
        return (← b.sliceFrom 5, x ||| (cb <<< 21), none)
      x := x ||| ((cb &&& (continuation - 1)) <<< 21)
      cb := (← b.at 5).setWidth 64
      if cb < continuation then
        return (← b.sliceFrom 6, x ||| (cb <<< 28), none)
      x := x ||| ((cb &&& (continuation - 1)) <<< 28)
      cb := (← b.at 6).setWidth 64
      if cb < continuation then
        return (← b.sliceFrom 7, x ||| (cb <<< 35), none)
      x := x ||| ((cb &&& (continuation - 1)) <<< 35)
      cb := (← b.at 7).setWidth 64
      if cb < continuation then
        return (← b.sliceFrom 8, x ||| (cb <<< 42), none)
      x := x ||| ((cb &&& (continuation - 1)) <<< 42)
      cb := (← b.at 8).setWidth 64
      if cb < continuation then
        return (← b.sliceFrom 9, x ||| (cb <<< 49), none)
      x := x ||| ((cb &&& (continuation - 1)) <<< 49)
      cb := (← b.at 9).setWidth 64
      if cb < continuation then
        return (← b.sliceFrom 10, x ||| (cb <<< 56), none)
      x := x ||| ((cb &&& (continuation - 1)) <<< 56)
      cb := (← b.at 10).setWidth 64
      if cb < continuation then
        return (← b.sliceFrom 11, x ||| (cb <<< 63), none)
  return (b, 0, some .InvalidUint64)

/-- v2/decode.go 293-345. -/
def decodeInt32 (b : Slice) : H (Slice × BitVec 32 × Option Err) := do
  if b.len > 1 then
    if (← b.at 0) = Int32RawKind then
      let mut cb := (← b.at 1).setWidth 32
      if cb < continuation then
        let mut x := cb >>> 1
        if cb &&& 1 ≠ 0 then
          x := -(x + 1)
        return (← b.sliceFrom 2, x, none)
      let mut x := cb &&& (continuation - 1)
      cb := (← b.at 2).setWidth 32
      if cb < continuation then
        x := x ||| (cb <<< 7)
        if x &&& 1 ≠ 0 then
          return (← b.sliceFrom 3, -((x >>> 1) + 1), none)
        return (← b.sliceFrom 3, x >>> 1, none)
      x := x ||| ((cb &&& (continuation - 1)) <<< 7)
      cb := (← b.at 3).setWidth 32
      if cb < continuation then
        x := x ||| (cb <<< 14)
        if x &&& 1 ≠ 0 then
          return (← b.sliceFrom 4, -((x >>> 1) + 1), none)
        return (← b.sliceFrom 4, x >>> 1, none)
      x := x ||| ((cb &&& (continuation - 1)) <<< 14)
      cb := (← b.at 4).setWidth 32
      if cb < continuation then
        x := x ||| (cb <<< 21)
        if x &&& 1 ≠ 0 then
          return (← b.sliceFrom 5, -((x >>> 1) + 1), none)
        return (← b.sliceFrom 5, x >>> 1, none)
      x := x ||| ((cb &&& (continuation - 1)) <<< 21)
      cb := (← b.at 5).setWidth 32
      if cb < continuation then
        x := x ||| (cb <<< 28)
        if x &&& 1 ≠ 0 then
          return (← b.sliceFrom 6, -((x >>> 1) + 1), none)
        return (← b.sliceFrom 6, x >>> 1, none)
  return (b, 0, some .InvalidInt32)

/-- v2/decode.go 347-449. -/
def decodeInt64 (b : Slice) : H (Slice × BitVec 64 × Option Err) := do
  if b.len > 1 then
    if (← b.at 0) = Int64RawKind then
      let mut cb := (← b.at 1).setWidth 64
      if cb < continuation then
        let mut x := cb >>> 1
        if cb &&& 1 ≠ 0 then
          x := -(x + 1)
        return (← b.sliceFrom 2, x, none)
      let mut x := cb &&& (continuation - 1)
      cb := (← b.at 2).setWidth 64
      if cb < continuation then
        x := x ||| (cb <<< 7)
        if x &&& 1 ≠ 0 then
          return (← b.sliceFrom 3, -((x >>> 1) + 1), none)
        return (← b.sliceFrom 3, x >>> 1, none)
      x := x ||| ((cb &&& (continuation - 1)) <<< 7)
      cb := (← b.at 3).setWidth 64
      if cb < continuation then
        x := x ||| (cb <<< 14)
        if x &&& 1 ≠ 0 then
          return (← b.sliceFrom 4, -((x >>> 1) + 1), none)
        return (← b.sliceFrom 4, x >>> 1, none)
      x := x ||| ((cb &&& (continuation - 1)) <<< 14)
      cb := (← b.at 4).setWidth 64
      if cb < continuation then
        x := x ||| (cb <<< 21)
        if x &&& 1 ≠ 0 then
          return (← b.sliceFrom 5, -((x >>> 1) + 1), none)
        return (← b.sliceFrom 5, x >>> 1, none)
      x := x ||| ((cb &&& (continuation - 1)) <<< 21)
      cb := (← b.at 5).setWidth 64
      if cb < continuation then
        x := x ||| (cb <<< 28)
        if x &&& 1 ≠ 0 then
          return (← b.sliceFrom 6, -((x >>> 1) + 1), none)
        return (← b.sliceFrom 6, x >>> 1, none)
      x := x ||| ((cb &&& (continuation - 1)) <<< 28)
      cb := (← b.at 6).setWidth 64
      if cb < continuation then
        x := x ||| (cb <<< 35)
        if x &&& 1 ≠ 0 then
          return (← b.sliceFrom 7, -((x >>> 1) + 1), none)
        return (← b.sliceFrom 7, x >>> 1, none)
      x := x ||| ((cb &&& (continuation - 1)) <<< 35)
      cb := (← b.at 7).setWidth 64
      if cb < continuation then
        x := x ||| (cb <<< 42)
        if x &&& 1 ≠ 0 then
          return (← b.sliceFrom 8, -((x >>> 1) + 1), none)
        return (← b.sliceFrom 8, x >>> 1, none)
      x := x ||| ((cb &&& (continuation - 1)) <<< 42)
      cb := (← b.at 8).setWidth 64
      if cb < continuation then
        x := x ||| (cb <<< 49)
        if x &&& 1 ≠ 0 then
          return (← b.sliceFrom 9, -((x >>> 1) + 1), none)
        return (← b.sliceFrom 9, x >>> 1, none)
      x := x ||| ((cb &&& (continuation - 1)) <<< 49)
      cb := (← b.at 9).setWidth 64
      if cb < continuation then
        x := x ||| (cb <<< 56)
        if x &&& 1 ≠ 0 then
          return (← b.sliceFrom 10, -((x >>> 1) + 1), none)
        return (← b.sliceFrom 10, x >>> 1, none)
      x := x ||| ((cb &&& (continuation - 1)) <<< 56)
      cb := (← b.at 10).setWidth 64
      if cb < continuation then
        x := x ||| (cb <<< 63)
        if x &&& 1 ≠ 0 then
          return (← b.sliceFrom 11, -((x >>> 1) + 1), none)
        return (← b.sliceFrom 11, x >>> 1, none)
  return (b, 0, some .InvalidInt64)

/-- v2/decode.go 451-456.  The value is the argument of `math.Float32frombits`. -/
def decodeFloat32 (b : Slice) : H (Slice × BitVec 32 × Option Err) := do
  if b.len > 4 then
    if (← b.at 0) = Float32RawKind then
      let rest ← b.sliceFrom 5
      let bits := (← b.at 4).setWidth 32 ||| ((← b.at 3).setWidth 32 <<< 8) |||
        ((← b.at 2).setWidth 32 <<< 16) ||| ((← b.at 1).setWidth 32 <<< 24)
      return (rest, bits, none)
  return (b, 0, some .InvalidFloat32)

/-- v2/decode.go 458-464.  The value is the argument of `math.Float64frombits`. -/
def decodeFloat64 (b : Slice) : H (Slice × BitVec 64 × Option Err) := do
  if b.len > 8 then
    if (← b.at 0) = Float64RawKind then
      let rest ← b.sliceFrom 9
      let bits := (← b.at 8).setWidth 64 ||| ((← b.at 7).setWidth 64 <<< 8) |||
        ((← b.at 6).setWidth 64 <<< 16) ||| ((← b.at 5).setWidth 64 <<< 24) |||
        ((← b.at 4).setWidth 64 <<< 32) ||| ((← b.at 3).setWidth 64 <<< 40) |||
        ((← b.at 2).setWidth 64 <<< 48) ||| ((← b.at 1).setWidth 64 <<< 56)
      return (rest, bits, none)
  return (b, 0, some .InvalidFloat64)

end GoV2.Heap
