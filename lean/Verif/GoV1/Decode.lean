import Verif.GoV1.Encode
import Verif.GoV2.Api

/-!
# Model of /repo/decode.go and /repo/decoder.go (v1)

Transcribed statement by statement; `b[i]`, `b[i:]`, `b[i:j]` carry Go's bounds checks.  The error
variables of v1 (decode.go 32-47) have the same names and messages as those of v2, so `GoV2.Err` names
them; likewise `GoV2.Outcome` is the result of a call.  A slice that may be nil (the scratch argument of
`Bytes` and its result) is an `Option Bytes`.
-/

namespace GoV1

open GoV2 (Err Outcome)
open Spec (Item)

/-! decode.go 26-28. -/
def VarIntLen16 : Nat := 3
def VarIntLen32 : Nat := 5
def VarIntLen64 : Nat := 10

/-- decode.go 49-56. -/
def decodeNil (b : Bytes) : Go (Bytes × Bool) := do
  if b.length > 0 then
    if (← b.at 0) = (← NilKind.at 0) then
      return (← b.sliceFrom 1, true)
  return (b, false)

/-- decode.go 192-212. -/
def decodeUint32 (b : Bytes) : Go (Bytes × BitVec 32 × Option Err) := do
  if b.length > 1 then
    if (← b.at 0) = (← Uint32Kind.at 0) then
      let mut x : BitVec 32 := 0
      let mut s : Nat := 0
      for i in [1 : VarIntLen32 + 1] do
        let cb ← b.at i
        if cb < (continuation : Byte) then
          if i > VarIntLen32 ∧ cb > 1 then
            return (b, 0, some .InvalidUint32)
          return (← b.sliceFrom (i + 1), x ||| (cb.setWidth 32 <<< s), none)
        x := x ||| ((cb &&& (continuation - 1 : Byte)).setWidth 32 <<< s)
        s := s + 7
  return (b, 0, some .InvalidUint32)

/-- decode.go 58-71. -/
def decodeMap (b : Bytes) (keyKind valueKind : Kind) : Go (Bytes × BitVec 32 × Option Err) := do
  if b.length > 2 then
    if (← b.at 0) = (← MapKind.at 0) then
      if (← b.at 1) = (← keyKind.at 0) then
        if (← b.at 2) = (← valueKind.at 0) then
          let (b, size, err) ← decodeUint32 (← b.sliceFrom 3)
          if err ≠ none then
            return (b, 0, some .InvalidMap)
          return (b, size, none)
  return (b, 0, some .InvalidMap)

/-- decode.go 73-86. -/
def decodeSlice (b : Bytes) (kind : Kind) : Go (Bytes × BitVec 32 × Option Err) := do
  if b.length > 1 then
    if (← b.at 0) = (← SliceKind.at 0) then
      if (← b.at 1) = (← kind.at 0) then
        let (b, size, err) ← decodeUint32 (← b.sliceFrom 2)
        if err ≠ none then
          return (b, 0, some .InvalidSlice)
        return (b, size, none)
  return (b, 0, some .InvalidSlice)

/-- `copy(dst, src)`: the contents of `dst` afterwards. -/
def copyOver (dst src : Bytes) : Bytes :=
  src.take (min dst.length src.length) ++ dst.drop (min dst.length src.length)

/-- decode.go 88-113.  `len(ret)` of a nil slice is 0; `copy` into a nil slice changes nothing. -/
def decodeBytes (b : Bytes) (ret : Option Bytes) : Go (Bytes × Option Bytes × Option Err) := do
  let mut b := b
  if b.length > 0 then
    if (← b.at 0) = (← BytesKind.at 0) then
      let (b', size, err) ← decodeUint32 (← b.sliceFrom 1)
      b := b'
      if err ≠ none then
        return (b, none, some .InvalidBytes)
      if (b.length : Int) > (size.toNat : Int) - 1 then
        let mut ret := ret
        let payload ← b.slice 0 size.toNat
        if (ret.getD []).length < size.toNat then
          if ret = none then
            ret := some (copyOver (List.replicate size.toNat 0) payload)
          else
            ret := some ((ret.getD []).take 0 ++ payload)
        else
          ret := ret.map (fun r => copyOver r payload)
        return (← b.sliceFrom size.toNat, ret, none)
  return (b, none, some .InvalidBytes)

/-- decode.go 115-130. -/
def decodeString (b : Bytes) : Go (Bytes × Bytes × Option Err) := do
  let mut b := b
  if b.length > 0 then
    if (← b.at 0) = (← StringKind.at 0) then
      let (b', size, err) ← decodeUint32 (← b.sliceFrom 1)
      b := b'
      if err ≠ none then
        return (b, [], some .InvalidString)
      if (b.length : Int) > (size.toNat : Int) - 1 then
        return (← b.sliceFrom size.toNat, ← b.slice 0 size.toNat, none)
  return (b, [], some .InvalidString)

/-- decode.go 132-145. -/
def decodeError (b : Bytes) : Go (Bytes × Option Bytes × Option Err) := do
  if b.length > 0 then
    if (← b.at 0) = (← ErrorKind.at 0) then
      let (b, val, err) ← decodeString (← b.sliceFrom 1)
      if err ≠ none then
        return (b, none, some .InvalidError)
      return (b, some val, none)
  return (b, none, some .InvalidError)

/-- decode.go 147-158. -/
def decodeBool (b : Bytes) : Go (Bytes × Bool × Option Err) := do
  if b.length > 1 then
    if (← b.at 0) = (← BoolKind.at 0) then
      if (← b.at 1) = trueBool then
        return (← b.sliceFrom 2, true, none)
      else
        return (← b.sliceFrom 2, false, none)
  return (b, false, some .InvalidBool)

/-- decode.go 160-167. -/
def decodeUint8 (b : Bytes) : Go (Bytes × BitVec 8 × Option Err) := do
  if b.length > 1 then
    if (← b.at 0) = (← Uint8Kind.at 0) then
      return (← b.sliceFrom 2, ← b.at 1, none)
  return (b, 0, some .InvalidUint8)

/-- decode.go 171-190 (the unreachable overflow branch returns `InvalidUint32`). -/
def decodeUint16 (b : Bytes) : Go (Bytes × BitVec 16 × Option Err) := do
  if b.length > 1 then
    if (← b.at 0) = (← Uint16Kind.at 0) then
      let mut x : BitVec 16 := 0
      let mut s : Nat := 0
      for i in [1 : VarIntLen16 + 1] do
        let cb ← b.at i
        if cb < (continuation : Byte) then
          if i > VarIntLen16 ∧ cb > 1 then
            return (b, 0, some .InvalidUint32)
          return (← b.sliceFrom (i + 1), x ||| (cb.setWidth 16 <<< s), none)
        x := x ||| ((cb &&& (continuation - 1 : Byte)).setWidth 16 <<< s)
        s := s + 7
  return (b, 0, some .InvalidUint16)

/-- decode.go 214-235. -/
def decodeUint64 (b : Bytes) : Go (Bytes × BitVec 64 × Option Err) := do
  if b.length > 1 then
    if (← b.at 0) = (← Uint64Kind.at 0) then
      let mut x : BitVec 64 := 0
      let mut s : Nat := 0
      for i in [1 : VarIntLen64 + 1] do
        let cb ← b.at i
        if cb < (continuation : Byte) then
          if i > VarIntLen64 ∧ cb > 1 then
            return (b, 0, some .InvalidUint64)
          return (← b.sliceFrom (i + 1), x ||| (cb.setWidth 64 <<< s), none)
        x := x ||| ((cb &&& (continuation - 1 : Byte)).setWidth 64 <<< s)
        s := s + 7
  return (b, 0, some .InvalidUint64)

/-- decode.go 237-263. -/
def decodeInt32 (b : Bytes) : Go (Bytes × BitVec 32 × Option Err) := do
  if b.length > 1 then
    if (← b.at 0) = (← Int32Kind.at 0) then
      let mut ux : BitVec 32 := 0
      let mut s : Nat := 0
      for i in [1 : VarIntLen32 + 1] do
        let cb ← b.at i
        if cb < (continuation : Byte) then
          if i > VarIntLen32 ∧ cb > 1 then
            return (b, 0, some .InvalidInt32)
          ux := ux ||| (cb.setWidth 32 <<< s)
          let mut x := ux >>> 1
          if ux &&& 1 ≠ 0 then
            x := -(x + 1)
          return (← b.sliceFrom (i + 1), x, none)
        ux := ux ||| ((cb &&& (continuation - 1 : Byte)).setWidth 32 <<< s)
        s := s + 7
  return (b, 0, some .InvalidInt32)

/-- decode.go 265-291. -/
def decodeInt64 (b : Bytes) : Go (Bytes × BitVec 64 × Option Err) := do
  if b.length > 1 then
    if (← b.at 0) = (← Int64Kind.at 0) then
      let mut ux : BitVec 64 := 0
      let mut s : Nat := 0
      for i in [1 : VarIntLen64 + 1] do
        let cb ← b.at i
        if cb < (continuation : Byte) then
          if i > VarIntLen64 ∧ cb > 1 then
            return (b, 0, some .InvalidInt64)
          ux := ux ||| (cb.setWidth 64 <<< s)
          let mut x := ux >>> 1
          if ux &&& 1 ≠ 0 then
            x := -(x + 1)
          return (← b.sliceFrom (i + 1), x, none)
        ux := ux ||| ((cb &&& (continuation - 1 : Byte)).setWidth 64 <<< s)
        s := s + 7
  return (b, 0, some .InvalidInt64)

/-- decode.go 293-300.  The value is the argument of `math.Float32frombits`. -/
def decodeFloat32 (b : Bytes) : Go (Bytes × BitVec 32 × Option Err) := do
  if b.length > 4 then
    if (← b.at 0) = (← Float32Kind.at 0) then
      let rest ← b.sliceFrom 5
      let bits := (← b.at 4).setWidth 32 ||| ((← b.at 3).setWidth 32 <<< 8) |||
        ((← b.at 2).setWidth 32 <<< 16) ||| ((← b.at 1).setWidth 32 <<< 24)
      return (rest, bits, none)
  return (b, 0, some .InvalidFloat32)

/-- decode.go 302-310.  The value is the argument of `math.Float64frombits`. -/
def decodeFloat64 (b : Bytes) : Go (Bytes × BitVec 64 × Option Err) := do
  if b.length > 8 then
    if (← b.at 0) = (← Float64Kind.at 0) then
      let rest ← b.sliceFrom 9
      let bits := (← b.at 8).setWidth 64 ||| ((← b.at 7).setWidth 64 <<< 8) |||
        ((← b.at 6).setWidth 64 <<< 16) ||| ((← b.at 5).setWidth 64 <<< 24) |||
        ((← b.at 4).setWidth 64 <<< 32) ||| ((← b.at 3).setWidth 64 <<< 40) |||
        ((← b.at 2).setWidth 64 <<< 48) ||| ((← b.at 1).setWidth 64 <<< 56)
      return (rest, bits, none)
  return (b, 0, some .InvalidFloat64)

/-- A v1 decoder method call with its arguments. -/
inductive Req where
  | nil
  | map (keyKind valueKind : Kind)
  | slice (kind : Kind)
  | bytes (ret : Option Bytes)
  | string
  | error
  | bool
  | uint8
  | uint16
  | uint32
  | uint64
  | int32
  | int64
  | float32
  | float64
deriving DecidableEq, Repr

/-- decoder.go 53-126: one decoder method call on the unread bytes.  A successful `Map`/`Slice` reports
the kinds that were asked for (by their first byte, which is what was compared). -/
def readItem (q : Req) (b : Bytes) : Go (Bytes × Outcome) :=
  match q with
  | .nil => do
    let (r, v) ← decodeNil b
    return (r, if v then .value .nil else .notNil)
  | .map k v => do
    let (r, size, e) ← decodeMap b k v
    return (r, .ofErr e (.map size (k.headD 0) (v.headD 0)))
  | .slice k => do
    let (r, size, e) ← decodeSlice b k
    return (r, .ofErr e (.slice size (k.headD 0)))
  | .bytes ret => do
    let (r, v, e) ← decodeBytes b ret
    return (r, .ofErr e (.bytes (v.getD [])))
  | .string => do
    let (r, v, e) ← decodeString b
    return (r, .ofErr e (.string v))
  | .error => do
    let (r, v, e) ← decodeError b
    return (r, .ofErr e (.error (v.getD [])))
  | .bool => do
    let (r, v, e) ← decodeBool b
    return (r, .ofErr e (.bool v))
  | .uint8 => do
    let (r, v, e) ← decodeUint8 b
    return (r, .ofErr e (.uint8 v))
  | .uint16 => do
    let (r, v, e) ← decodeUint16 b
    return (r, .ofErr e (.uint16 v))
  | .uint32 => do
    let (r, v, e) ← decodeUint32 b
    return (r, .ofErr e (.uint32 v))
  | .uint64 => do
    let (r, v, e) ← decodeUint64 b
    return (r, .ofErr e (.uint64 v))
  | .int32 => do
    let (r, v, e) ← decodeInt32 b
    return (r, .ofErr e (.int32 v))
  | .int64 => do
    let (r, v, e) ← decodeInt64 b
    return (r, .ofErr e (.int64 v))
  | .float32 => do
    let (r, v, e) ← decodeFloat32 b
    return (r, .ofErr e (.float32 v))
  | .float64 => do
    let (r, v, e) ← decodeFloat64 b
    return (r, .ofErr e (.float64 v))

/-- A sequence of decoder method calls. -/
def readAll : List Req → Bytes → Go (Bytes × List Outcome)
  | [], b => .ok (b, [])
  | q :: qs, b => do
    let (b, o) ← readItem q b
    let (b, os) ← readAll qs b
    return (b, o :: os)

end GoV1
