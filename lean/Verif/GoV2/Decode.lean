import Verif.GoV2.Encode

/-!
# Model of /repo/v2/decode.go

Each `decode*` function is transcribed statement by statement.  It takes the unread bytes and returns
the new unread bytes, the value and the error (`none` is `nil`), or panics.  `b[i]` is `b.at i` and
`b[i:]` is `b.sliceFrom i`, both with Go's bounds checks.  `&&` is nested `if`s (short circuit).
`int` is 64 bits wide: `int(x)` of a `uint32` is its value (32-bit platforms are not modelled).
-/

namespace GoV2

/-- v2/decode.go 32-47: the package's error values (distinct pointers, compared by identity). -/
inductive Err where
  | InvalidSlice | InvalidMap | InvalidBytes | InvalidString | InvalidError | InvalidBool
  | InvalidUint8 | InvalidUint16 | InvalidUint32 | InvalidUint64 | InvalidInt32 | InvalidInt64
  | InvalidFloat32 | InvalidFloat64
deriving DecidableEq, Repr

/-- v2/decode.go 49-54. -/
def decodeNil (b : Bytes) : Go (Bytes × Bool) := do
  if b.length > 0 then
    if (← b.at 0) = NilRawKind then
      return (← b.sliceFrom 1, true)
  return (b, false)

/-- v2/decode.go 195-227. -/
def decodeUint32 (b : Bytes) : Go (Bytes × BitVec 32 × Option Err) := do
  if b.length > 1 then
    if (← b.at 0) = Uint32RawKind then
      let mut cb := (← b.at 1).setWidth 32
      if cb < continuation then
        return (← b.sliceFrom 2, cb, none)
      let mut x := cb &&& (continuation - 1)
      cb := (← b.at 2).setWidth 32
      if cb < continuation then
        return (← b.sliceFrom 3, x ||| (cb <<< 7), none)
      x := x ||| ((cb &&& (continuation - 1)) <<< 7)
      cb := (← b.at 3).setWidth 32
      if cb < continuation then
        return (← b.sliceFrom 4, x ||| (cb <<< 14), none)
      x := x ||| ((cb &&& (continuation - 1)) <<< 14)
      cb := (← b.at 4).setWidth 32
      if cb < continuation then
        return (← b.sliceFrom 5, x ||| (cb <<< 21), none)
      x := x ||| ((cb &&& (continuation - 1)) <<< 21)
      cb := (← b.at 5).setWidth 32
      if cb < continuation then
        return (← b.sliceFrom 6, x ||| (cb <<< 28), none)
  return (b, 0, some .InvalidUint32)

/-- v2/decode.go 56-67. -/
def decodeMap (b : Bytes) (keyKind valueKind : Kind) : Go (Bytes × BitVec 32 × Option Err) := do
  if b.length > 3 then
    if (← b.at 0) = MapRawKind then
      if (← b.at 1) = keyKind then
        if (← b.at 2) = valueKind then
          let (b, size, err) ← decodeUint32 (← b.sliceFrom 3)
          if err ≠ none then
            return (b, 0, some .InvalidMap)
          return (b, size, none)
  return (b, 0, some .InvalidMap)

/-- v2/decode.go 69-80. -/
def decodeSlice (b : Bytes) (kind : Kind) : Go (Bytes × BitVec 32 × Option Err) := do
  if b.length > 2 then
    if (← b.at 0) = SliceRawKind then
      if (← b.at 1) = kind then
        let (b, size, err) ← decodeUint32 (← b.sliceFrom 2)
        if err ≠ none then
          return (b, 0, some .InvalidSlice)
        return (b, size, none)
  return (b, 0, some .InvalidSlice)

/-- v2/decode.go 82-124.  The returned value is the content of `append(ret[:0], ...)`, which does not
depend on `ret` (see `Heap` for the memory it lives in); the nil slice and the empty slice are not
distinguished. -/
def decodeBytes (b : Bytes) (ret : Bytes) : Go (Bytes × Bytes × Option Err) := do
  if b.length > 2 then
    if (← b.at 0) = BytesRawKind then
      if (← b.at 1) = Uint32RawKind then
        let mut size : Int := 0
        let mut offset : Int := 0
        let mut cb := (← b.at 2).setWidth 32
        if cb < continuation then
          size := cb.toNat
          offset := 3
        else
          let mut x := cb &&& (continuation - 1)
          cb := (← b.at 3).setWidth 32
          if cb < continuation then
            size := (x ||| (cb <<< 7)).toNat
            offset := 4
          else
            x := x ||| ((cb &&& (continuation - 1)) <<< 7)
            cb := (← b.at 4).setWidth 32
            if cb < continuation then
              size := (x ||| (cb <<< 14)).toNat
              offset := 5
            else
              x := x ||| ((cb &&& (continuation - 1)) <<< 14)
              cb := (← b.at 5).setWidth 32
              if cb < continuation then
                size := (x ||| (cb <<< 21)).toNat
                offset := 6
              else
                x := x ||| ((cb &&& (continuation - 1)) <<< 21)
                cb := (← b.at 6).setWidth 32
                if cb < continuation then
                  size := (x ||| (cb <<< 28)).toNat
                  offset := 7
        if (b.length : Int) - offset > size - 1 then
          let rest ← b.sliceFrom (size + offset).toNat
          let payload ← b.slice offset.toNat (size + offset).toNat
          return (rest, ret.take 0 ++ payload, none)
  return (b, [], some .InvalidBytes)

/-- v2/decode.go 126-139. -/
def decodeString (b : Bytes) : Go (Bytes × Bytes × Option Err) := do
  let mut b := b
  if b.length > 1 then
    if (← b.at 0) = StringRawKind then
      let (b', size, err) ← decodeUint32 (← b.sliceFrom 1)
      b := b'
      if err ≠ none then
        return (b, [], some .InvalidString)
      if (b.length : Int) > (size.toNat : Int) - 1 then
        return (← b.sliceFrom size.toNat, ← b.slice 0 size.toNat, none)
  return (b, [], some .InvalidString)

/-- v2/decode.go 141-152.  A decoded error is `Error(val)`, represented by its message; `none` is a nil
error value. -/
def decodeError (b : Bytes) : Go (Bytes × Option Bytes × Option Err) := do
  if b.length > 1 then
    if (← b.at 0) = ErrorRawKind then
      let (b, val, err) ← decodeString (← b.sliceFrom 1)
      if err ≠ none then
        return (b, none, some .InvalidError)
      return (b, some val, none)
  return (b, none, some .InvalidError)

/-- v2/decode.go 154-164. -/
def decodeBool (b : Bytes) : Go (Bytes × Bool × Option Err) := do
  if b.length > 1 then
    if (← b.at 0) = BoolRawKind then
      let c ← b.at 1
      if c = trueBool then
        return (← b.sliceFrom 2, true, none)
      else if c = falseBool then
        return (← b.sliceFrom 2, false, none)
  return (b, false, some .InvalidBool)

/-- v2/decode.go 166-171. -/
def decodeUint8 (b : Bytes) : Go (Bytes × BitVec 8 × Option Err) := do
  if b.length > 1 then
    if (← b.at 0) = Uint8RawKind then
      return (← b.sliceFrom 2, ← b.at 1, none)
  return (b, 0, some .InvalidUint8)

/-- v2/decode.go 173-193. -/
def decodeUint16 (b : Bytes) : Go (Bytes × BitVec 16 × Option Err) := do
  if b.length > 1 then
    if (← b.at 0) = Uint16RawKind then
      let mut cb := (← b.at 1).setWidth 16
      if cb < continuation then
        return (← b.sliceFrom 2, cb, none)
      let mut x := cb &&& (continuation - 1)
      cb := (← b.at 2).setWidth 16
      if cb < continuation then
        return (← b.sliceFrom 3, x ||| (cb <<< 7), none)
      x := x ||| ((cb &&& (continuation - 1)) <<< 7)
      cb := (← b.at 3).setWidth 16
      if cb < continuation then
        return (← b.sliceFrom 4, x ||| (cb <<< 14), none)
  return (b, 0, some .InvalidUint16)

/-- v2/decode.go 229-291. -/
def decodeUint64 (b : Bytes) : Go (Bytes × BitVec 64 × Option Err) := do
  if b.length > 1 then
    if (← b.at 0) = Uint64RawKind then
      let mut cb := (← b.at 1).setWidth 64
      if cb < continuation then
        return (← b.sliceFrom 2, cb, none)
      let mut x := cb &&& (continuation - 1)
      cb := (← b.at 2).setWidth 64
      if cb < continuation then
        return (← b.sliceFrom 3, x ||| (cb <<< 7), none)
      x := x ||| ((cb &&& (continuation - 1)) <<< 7)
      cb := (← b.at 3).setWidth 64
      if cb < continuation then
        return (← b.sliceFrom 4, x ||| (cb <<< 14), none)
      x := x ||| ((cb &&& (continuation - 1)) <<< 14)
      cb := (← b.at 4).setWidth 64
      if cb < continuation then
        return (← b.sliceFrom 5, x ||| (cb <<< 21), none)
      x := x ||| ((cb &&& (continuation - 1)) <<< 21)
      cb := (← b.at 5).setWidth 64
      if cb < continuation then
        return (← b.sliceFrom 6, x ||| (cb <<< 28), none)
      x := x ||| ((cb &&& (continuation - 1)) <<< 28)
      cb := (← b.at 6).setWidth 64
      if cb < continuation then
        return (← b.sliceFrom 7, x ||| (cb <<< 35), none)
      x := x ||| ((cb &&& (continuation - 1)) <<< 35)
      cb := (← b.at 7).setWidth 64
      if cb < continuation then
        return (← b.sliceFrom 8, x ||| (cb <<< 42), none)
      x := x ||| ((cb &&& (continuation - 1)) <<< 42)
      cb := (← b.at 8).setWidth 64
      if cb < continuation then
        return (← b.sliceFrom 9, x ||| (cb <<< 49), none)
      x := x ||| ((cb &&& (continuation - 1)) <<< 49)
      cb := (← b.at 9).setWidth 64
      if cb < continuation then
        return (← b.sliceFrom 10, x ||| (cb <<< 56), none)
      x := x ||| ((cb &&& (continuation - 1)) <<< 56)
      cb := (← b.at 10).setWidth 64
      if cb < continuation then
        return (← b.sliceFrom 11, x ||| (cb <<< 63), none)
  return (b, 0, some .InvalidUint64)

/-- v2/decode.go 293-345. -/
def decodeInt32 (b : Bytes) : Go (Bytes × BitVec 32 × Option Err) := do
  if b.length > 1 then
    if (← b.at 0) = Int32RawKind then
      let mut cb := (← b.at 1).setWidth 32
      if cb < continuation then
        let mut x := cb >>> 1
        if cb &&& 1 ≠ 0 then
          x := -(x + 1)
        return (← b.sliceFrom 2, x, none)
      let mut x := cb &&& (continuation - 1)
      cb := (← b.at 2).setWidth 32
      if cb < continuation then
        x := x ||| (cb <<< 7)
        if x &&& 1 ≠ 0 then
          return (← b.sliceFrom 3, -((x >>> 1) + 1), none)
        return (← b.sliceFrom 3, x >>> 1, none)
      x := x ||| ((cb &&& (continuation - 1)) <<< 7)
      cb := (← b.at 3).setWidth 32
      if cb < continuation then
        x := x ||| (cb <<< 14)
        if x &&& 1 ≠ 0 then
          return (← b.sliceFrom 4, -((x >>> 1) + 1), none)
        return (← b.sliceFrom 4, x >>> 1, none)
      x := x ||| ((cb &&& (continuation - 1)) <<< 14)
      cb := (← b.at 4).setWidth 32
      if cb < continuation then
        x := x ||| (cb <<< 21)
        if x &&& 1 ≠ 0 then
          return (← b.sliceFrom 5, -((x >>> 1) + 1), none)
        return (← b.sliceFrom 5, x >>> 1, none)
      x := x ||| ((cb &&& (continuation - 1)) <<< 21)
      cb := (← b.at 5).setWidth 32
      if cb < continuation then
        x := x ||| (cb <<< 28)
        if x &&& 1 ≠ 0 then
          return (← b.sliceFrom 6, -((x >>> 1) + 1), none)
        return (← b.sliceFrom 6, x >>> 1, none)
  return (b, 0, some .InvalidInt32)

/-- v2/decode.go 347-449. -/
def decodeInt64 (b : Bytes) : Go (Bytes × BitVec 64 × Option Err) := do
  if b.length > 1 then
    if (← b.at 0) = Int64RawKind then
      let mut cb := (← b.at 1).setWidth 64
      if cb < continuation then
        let mut x := cb >>> 1
        if cb &&& 1 ≠ 0 then
          x := -(x + 1)
        return (← b.sliceFrom 2, x, none)
      let mut x := cb &&& (continuation - 1)
      cb := (← b.at 2).setWidth 64
      if cb < continuation then
        x := x ||| (cb <<< 7)
        if x &&& 1 ≠ 0 then
          return (← b.sliceFrom 3, -((x >>> 1) + 1), none)
        return (← b.sliceFrom 3, x >>> 1, none)
      x := x ||| ((cb &&& (continuation - 1)) <<< 7)
      cb := (← b.at 3).setWidth 64
      if cb < continuation then
        x := x ||| (cb <<< 14)
        if x &&& 1 ≠ 0 then
          return (← b.sliceFrom 4, -((x >>> 1) + 1), none)
        return (← b.sliceFrom 4, x >>> 1, none)
      x := x ||| ((cb &&& (continuation - 1)) <<< 14)
      cb := (← b.at 4).setWidth 64
      if cb < continuation then
        x := x ||| (cb <<< 21)
        if x &&& 1 ≠ 0 then
          return (← b.sliceFrom 5, -((x >>> 1) + 1), none)
        return (← b.sliceFrom 5, x >>> 1, none)
      x := x ||| ((cb &&& (continuation - 1)) <<< 21)
      cb := (← b.at 5).setWidth 64
      if cb < continuation then
        x := x ||| (cb <<< 28)
        if x &&& 1 ≠ 0 then
          return (← b.sliceFrom 6, -((x >>> 1) + 1), none)
        return (← b.sliceFrom 6, x >>> 1, none)
      x := x ||| ((cb &&& (continuation - 1)) <<< 28)
      cb := (← b.at 6).setWidth 64
      if cb < continuation then
        x := x ||| (cb <<< 35)
        if x &&& 1 ≠ 0 then
          return (← b.sliceFrom 7, -((x >>> 1) + 1), none)
        return (← b.sliceFrom 7, x >>> 1, none)
      x := x ||| ((cb &&& (continuation - 1)) <<< 35)
      cb := (← b.at 7).setWidth 64
      if cb < continuation then
        x := x ||| (cb <<< 42)
        if x &&& 1 ≠ 0 then
          return (← b.sliceFrom 8, -((x >>> 1) + 1), none)
        return (← b.sliceFrom 8, x >>> 1, none)
      x := x ||| ((cb &&& (continuation - 1)) <<< 42)
      cb := (← b.at 8).setWidth 64
      if cb < continuation then
        x := x ||| (cb <<< 49)
        if x &&& 1 ≠ 0 then
          return (← b.sliceFrom 9, -((x >>> 1) + 1), none)
        return (← b.sliceFrom 9, x >>> 1, none)
      x := x ||| ((cb &&& (continuation - 1)) <<< 49)
      cb := (← b.at 9).setWidth 64
      if cb < continuation then
        x := x ||| (cb <<< 56)
        if x &&& 1 ≠ 0 then
          return (← b.sliceFrom 10, -((x >>> 1) + 1), none)
        return (← b.sliceFrom 10, x >>> 1, none)
      x := x ||| ((cb &&& (continuation - 1)) <<< 56)
      cb := (← b.at 10).setWidth 64
      if cb < continuation then
        x := x ||| (cb <<< 63)
        if x &&& 1 ≠ 0 then
          return (← b.sliceFrom 11, -((x >>> 1) + 1), none)
        return (← b.sliceFrom 11, x >>> 1, none)
  return (b, 0, some .InvalidInt64)

/-- v2/decode.go 451-456.  The value is the argument of `math.Float32frombits`. -/
def decodeFloat32 (b : Bytes) : Go (Bytes × BitVec 32 × Option Err) := do
  if b.length > 4 then
    if (← b.at 0) = Float32RawKind then
      let rest ← b.sliceFrom 5
      let bits := (← b.at 4).setWidth 32 ||| ((← b.at 3).setWidth 32 <<< 8) |||
        ((← b.at 2).setWidth 32 <<< 16) ||| ((← b.at 1).setWidth 32 <<< 24)
      return (rest, bits, none)
  return (b, 0, some .InvalidFloat32)

/-- v2/decode.go 458-464.  The value is the argument of `math.Float64frombits`. -/
def decodeFloat64 (b : Bytes) : Go (Bytes × BitVec 64 × Option Err) := do
  if b.length > 8 then
    if (← b.at 0) = Float64RawKind then
      let rest ← b.sliceFrom 9
      let bits := (← b.at 8).setWidth 64 ||| ((← b.at 7).setWidth 64 <<< 8) |||
        ((← b.at 6).setWidth 64 <<< 16) ||| ((← b.at 5).setWidth 64 <<< 24) |||
        ((← b.at 4).setWidth 64 <<< 32) ||| ((← b.at 3).setWidth 64 <<< 40) |||
        ((← b.at 2).setWidth 64 <<< 48) ||| ((← b.at 1).setWidth 64 <<< 56)
      return (rest, bits, none)
  return (b, 0, some .InvalidFloat64)

end GoV2
