import Verif.GoV1.Decode
import Verif.GoV2.HeapDecode

/-!
# /repo/decode.go (v1) over memory

The statements of `GoV1/Decode.lean`, with the input and the scratch slice of `Bytes` as references (`GoV2/Heap.lean`).  Kinds
are values: nothing here writes to them.
-/

namespace GoV1.Heap

open GoV2 (Runtime Err Outcome)
open GoV2.Heap (Heap Slice H make)

/-- `k[0]`: panics on an empty kind. -/
def kindAt (k : Kind) : H Byte := fun h =>
  match k.at 0 with
  | .ok x => .ok (x, h)
  | .panic => .panic

/-- decode.go 49-56. -/
def decodeNil (b : Slice) : H (Slice × Bool) := do
  if b.len > 0 then
    if (← b.at 0) = (← kindAt NilKind) then
      return (← b.sliceFrom 1, true)
  return (b, false)

/-- decode.go 192-212. -/
def decodeUint32 (b : Slice) : H (Slice × BitVec 32 × Option Err) := do
  if b.len > 1 then
    if (← b.at 0) = (← kindAt Uint32Kind) then
      let mut x : BitVec 32 := 0
      let mut s : Nat := 0
      for i in [1 : VarIntLen32 + 1] do
        let cb ← b.at i
        if cb < (continuation : Byte) then
          if i > VarIntLen32 ∧ cb > 1 then
            return (b, 0, some .InvalidUint32)
          return (← b.sliceFrom (i + 1), x ||| (cb.setWidth 32 <<< s), none)
        x := x ||| ((cb &&& (continuation - 1 : Byte)).setWidth 32 <<< s)
        s := s + 7
  return (b, 0, some .InvalidUint32)

/-- decode.go 58-71. -/
def decodeMap (b : Slice) (keyKind valueKind : Kind) : H (Slice × BitVec 32 × Option Err) := do
  if b.len > 2 then
    if (← b.at 0) = (← kindAt MapKind) then
      if (← b.at 1) = (← kindAt keyKind) then
        if (← b.at 2) = (← kindAt valueKind) then
          let (b, size, err) ← decodeUint32 (← b.sliceFrom 3)
          if err ≠ none then
            return (b, 0, some .InvalidMap)
          return (b, size, none)
  return (b, 0, some .InvalidMap)

/-- decode.go 73-86. -/
def decodeSlice (b : Slice) (kind : Kind) : H (Slice × BitVec 32 × Option Err) := do
  if b.len > 1 then
    if (← b.at 0) = (← kindAt SliceKind) then
      if (← b.at 1) = (← kindAt kind) then
        let (b, size, err) ← decodeUint32 (← b.sliceFrom 2)
        if err ≠ none then
          return (b, 0, some .InvalidSlice)
        return (b, size, none)
  return (b, 0, some .InvalidSlice)

/-- decode.go 96-107: where the payload goes.  `none` is the nil slice; `copy` into it copies nothing. -/
def storeBytes (rt : Runtime) (b : Slice) (size : Nat) (ret : Option Slice) : H (Option Slice) := do
  if (ret.getD ⟨0, 0, 0, 0⟩).len < size then
    match ret with
    | none =>
      let r ← make size
      let _ ← r.copy (← (← b.slice 0 size).read)
      return some r
    | some r =>
      let r0 ← r.slice 0 0
      return some (← r0.append rt (← (← b.slice 0 size).read))
  else
    match ret with
    | none => return none
    | some r =>
      let _ ← r.copy (← (← b.slice 0 size).read)
      return some r

/-- decode.go 88-113.  `none` is the nil slice.  The arguments of `append` and `copy` are read when they run. -/
def decodeBytes (rt : Runtime) (b : Slice) (ret : Option Slice) : H (Slice × Option Slice × Option Err) := do
  let mut b := b
  if b.len > 0 then
    if (← b.at 0) = (← kindAt BytesKind) then
      let (b', size, err) ← decodeUint32 (← b.sliceFrom 1)
      b := b'
      if err ≠ none then
        return (b, none, some .InvalidBytes)
      if (b.len : Int) > (size.toNat : Int) - 1 then
        let ret ← storeBytes rt b size.toNat ret
        return (← b.sliceFrom size.toNat, ret, none)
  return (b, none, some .InvalidBytes)

/-- decode.go 115-130. -/
def decodeString (b : Slice) : H (Slice × Bytes × Option Err) := do
  let mut b := b
  if b.len > 0 then
    if (← b.at 0) = (← kindAt StringKind) then
      let (b', size, err) ← decodeUint32 (← b.sliceFrom 1)
      b := b'
      if err ≠ none then
        return (b, [], some .InvalidString)
      if (b.len : Int) > (size.toNat : Int) - 1 then
        return (← b.sliceFrom size.toNat, ← (← b.slice 0 size.toNat).read, none)
  return (b, [], some .InvalidString)

/-- decode.go 132-145. -/
def decodeError (b : Slice) : H (Slice × Option Bytes × Option Err) := do
  if b.len > 0 then
    if (← b.at 0) = (← kindAt ErrorKind) then
      let (b, val, err) ← decodeString (← b.sliceFrom 1)
      if err ≠ none then
        return (b, none, some .InvalidError)
      return (b, some val, none)
  return (b, none, some .InvalidError)

/-- decode.go 147-158. -/
def decodeBool (b : Slice) : H (Slice × Bool × Option Err) := do
  if b.len > 1 then
    if (← b.at 0) = (← kindAt BoolKind) then
      if (← b.at 1) = trueBool then
        return (← b.sliceFrom 2, true, none)
      else
        return (← b.sliceFrom 2, false, none)
  return (b, false, some .InvalidBool)

/-- decode.go 160-167. -/
def decodeUint8 (b : Slice) : H (Slice × BitVec 8 × Option Err) := do
  if b.len > 1 then
    if (← b.at 0) = (← kindAt Uint8Kind) then
      return (← b.sliceFrom 2, ← b.at 1, none)
  return (b, 0, some .InvalidUint8)

/-- decode.go 171-190 (the unreachable overflow branch returns `InvalidUint32`). -/
def decodeUint16 (b : Slice) : H (Slice × BitVec 16 × Option Err) := do
  if b.len > 1 then
    if (← b.at 0) = (← kindAt Uint16Kind) then
      let mut x : BitVec 16 := 0
      let mut s : Nat := 0
      for i in [1 : VarIntLen16 + 1] do
        let cb ← b.at i
        if cb < (continuation : Byte) then
          if i > VarIntLen16 ∧ cb > 1 then
            return (b, 0, some .InvalidUint32)
          return (← b.sliceFrom (i + 1), x ||| (cb.setWidth 16 <<< s), none)
        x := x ||| ((cb &&& (continuation - 1 : Byte)).setWidth 16 <<< s)
        s := s + 7
  return (b, 0, some .InvalidUint16)

/-- decode.go 214-235. -/
def decodeUint64 (b : Slice) : H (Slice × BitVec 64 × Option Err) := do
  if b.len > 1 then
    if (← b.at 0) = (← kindAt Uint64Kind) then
      let mut x : BitVec 64 := 0
      let mut s : Nat := 0
      for i in [1 : VarIntLen64 + 1] do
        let cb ← b.at i
        if cb < (continuation : Byte) then
          if i > VarIntLen64 ∧ cb > 1 then
            return (b, 0, some .InvalidUint64)
          return (← b.sliceFrom (i + 1), x ||| (cb.setWidth 64 <<< s), none)
        x := x ||| ((cb &&& (continuation - 1 : Byte)).setWidth 64 <<< s)
        s := s + 7
  return (b, 0, some .InvalidUint64)

/-- decode.go 237-263. -/
def decodeInt32 (b : Slice) : H (Slice × BitVec 32 × Option Err) := do
  if b.len > 1 then
    if (← b.at 0) = (← kindAt Int32Kind) then
      let mut ux : BitVec 32 := 0
      let mut s : Nat := 0
      for i in [1 : VarIntLen32 + 1] do
        let cb ← b.at i
        if cb < (continuation : Byte) then
          if i > VarIntLen32 ∧ cb > 1 then
            return (b, 0, some .InvalidInt32)
          ux := ux ||| (cb.setWidth 32 <<< s)
          let mut x := ux >>> 1
          if ux &&& 1 ≠ 0 then
            x := -(x + 1)
          return (← b.sliceFrom (i + 1), x, none)
        ux := ux ||| ((cb &&& (continuation - 1 : Byte)).setWidth 32 <<< s)
        s := s + 7
  return (b, 0, some .InvalidInt32)

/-- decode.go 265-291. -/
def decodeInt64 (b : Slice) : H (Slice × BitVec 64 × Option Err) := do
  if b.len > 1 then
    if (← b.at 0) = (← kindAt Int64Kind) then
      let mut ux : BitVec 64 := 0
      let mut s : Nat := 0
      for i in [1 : VarIntLen64 + 1] do
        let cb ← b.at i
        if cb < (continuation : Byte) then
          if i > VarIntLen64 ∧ cb > 1 then
            return (b, 0, some .InvalidInt64)
          ux := ux ||| (cb.setWidth 64 <<< s)
          let mut x := ux >>> 1
          if ux &&& 1 ≠ 0 then
            x := -(x + 1)
          return (← b.sliceFrom (i + 1), x, none)
        ux := ux ||| ((cb &&& (continuation - 1 : Byte)).setWidth 64 <<< s)
        s := s + 7
  return (b, 0, some .InvalidInt64)

/-- decode.go 293-300.  The value is the argument of `math.Float32frombits`. -/
def decodeFloat32 (b : Slice) : H (Slice × BitVec 32 × Option Err) := do
  if b.len > 4 then
    if (← b.at 0) = (← kindAt Float32Kind) then
      let rest ← b.sliceFrom 5
      let bits := (← b.at 4).setWidth 32 ||| ((← b.at 3).setWidth 32 <<< 8) |||
        ((← b.at 2).setWidth 32 <<< 16) ||| ((← b.at 1).setWidth 32 <<< 24)
      return (rest, bits, none)
  return (b, 0, some .InvalidFloat32)

/-- decode.go 302-310.  The value is the argument of `math.Float64frombits`. -/
def decodeFloat64 (b : Slice) : H (Slice × BitVec 64 × Option Err) := do
  if b.len > 8 then
    if (← b.at 0) = (← kindAt Float64Kind) then
      let rest ← b.sliceFrom 9
      let bits := (← b.at 8).setWidth 64 ||| ((← b.at 7).setWidth 64 <<< 8) |||
        ((← b.at 6).setWidth 64 <<< 16) ||| ((← b.at 5).setWidth 64 <<< 24) |||
        ((← b.at 4).setWidth 64 <<< 32) ||| ((← b.at 3).setWidth 64 <<< 40) |||
        ((← b.at 2).setWidth 64 <<< 48) ||| ((← b.at 1).setWidth 64 <<< 56)
      return (rest, bits, none)
  return (b, 0, some .InvalidFloat64)

end GoV1.Heap
