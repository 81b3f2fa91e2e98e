import Verif.GoV2.Api

/-!
# /repo/v2/benchmarks/polyglot/benchmark/bench.polyglot.go

The one file of generated code in the repository, transcribed statement by statement (not through the model of the
generator).  A pointer to a struct is an `Option`; a method that changes the struct returns its new value.
-/

namespace Bench

open GoV2

/-- The error results: `NilDecode` (line 11-13) or an error of the library. -/
inductive Fault where
  | nilDecode
  | lib (e : Err)
deriving DecidableEq, Repr

/-- Lines 15-17: `type BytesData struct { Bytes []byte }`. -/
structure BytesData where
  Bytes : _root_.Bytes
deriving DecidableEq, Repr

/-- Lines 19-21. -/
def NewBytesData : BytesData := ⟨[]⟩

/-- Lines 27-34. -/
def BytesData.Encode (rt : Runtime) (x : Option BytesData) (b : Buffer) : Go Buffer :=
  match x with
  | none => encodeNil rt b
  | some x => encodeBytes rt b x.Bytes

/-- Lines 43-55: the unread bytes, the struct and the error. -/
def BytesData.decode (x : BytesData) (d : _root_.Bytes) : Go (_root_.Bytes × BytesData × Option Err) := do
  let (d, isNil) ← decodeNil d
  if isNil then
    return (d, x, none)
  let (d, v, err) ← decodeBytes d x.Bytes
  let x := { x with Bytes := v }
  if err ≠ none then
    return (d, x, err)
  return (d, x, none)

/-- Lines 36-41: the struct afterwards and the error. -/
def BytesData.Decode (x : Option BytesData) (b : _root_.Bytes) : Go (Option BytesData × Option Fault) :=
  match x with
  | none => .ok (none, some .nilDecode)
  | some x => do
    let (_, x, err) ← x.decode b
    return (some x, err.map .lib)

/-- Lines 57-59. -/
structure I32Data where
  I32 : BitVec 32
deriving DecidableEq, Repr

/-- Lines 61-63. -/
def NewI32Data : I32Data := ⟨0⟩

/-- Lines 69-76. -/
def I32Data.Encode (rt : Runtime) (x : Option I32Data) (b : Buffer) : Go Buffer :=
  match x with
  | none => encodeNil rt b
  | some x => encodeInt32 rt b x.I32

/-- Lines 85-97. -/
def I32Data.decode (x : I32Data) (d : _root_.Bytes) : Go (_root_.Bytes × I32Data × Option Err) := do
  let (d, isNil) ← decodeNil d
  if isNil then
    return (d, x, none)
  let (d, v, err) ← decodeInt32 d
  let x := { x with I32 := v }
  if err ≠ none then
    return (d, x, err)
  return (d, x, none)

/-- Lines 78-83. -/
def I32Data.Decode (x : Option I32Data) (b : _root_.Bytes) : Go (Option I32Data × Option Fault) :=
  match x with
  | none => .ok (none, some .nilDecode)
  | some x => do
    let (_, x, err) ← x.decode b
    return (some x, err.map .lib)

/-- Lines 99-101. -/
structure U32Data where
  U32 : BitVec 32
deriving DecidableEq, Repr

/-- Lines 103-105. -/
def NewU32Data : U32Data := ⟨0⟩

/-- Lines 111-118. -/
def U32Data.Encode (rt : Runtime) (x : Option U32Data) (b : Buffer) : Go Buffer :=
  match x with
  | none => encodeNil rt b
  | some x => encodeUint32 rt b x.U32

/-- Lines 127-139. -/
def U32Data.decode (x : U32Data) (d : _root_.Bytes) : Go (_root_.Bytes × U32Data × Option Err) := do
  let (d, isNil) ← decodeNil d
  if isNil then
    return (d, x, none)
  let (d, v, err) ← decodeUint32 d
  let x := { x with U32 := v }
  if err ≠ none then
    return (d, x, err)
  return (d, x, none)

/-- Lines 120-125. -/
def U32Data.Decode (x : Option U32Data) (b : _root_.Bytes) : Go (Option U32Data × Option Fault) :=
  match x with
  | none => .ok (none, some .nilDecode)
  | some x => do
    let (_, x, err) ← x.decode b
    return (some x, err.map .lib)

/-- Lines 141-143. -/
structure I64Data where
  I64 : BitVec 64
deriving DecidableEq, Repr

/-- Lines 145-147. -/
def NewI64Data : I64Data := ⟨0⟩

/-- Lines 153-160. -/
def I64Data.Encode (rt : Runtime) (x : Option I64Data) (b : Buffer) : Go Buffer :=
  match x with
  | none => encodeNil rt b
  | some x => encodeInt64 rt b x.I64

/-- Lines 169-181. -/
def I64Data.decode (x : I64Data) (d : _root_.Bytes) : Go (_root_.Bytes × I64Data × Option Err) := do
  let (d, isNil) ← decodeNil d
  if isNil then
    return (d, x, none)
  let (d, v, err) ← decodeInt64 d
  let x := { x with I64 := v }
  if err ≠ none then
    return (d, x, err)
  return (d, x, none)

/-- Lines 162-167. -/
def I64Data.Decode (x : Option I64Data) (b : _root_.Bytes) : Go (Option I64Data × Option Fault) :=
  match x with
  | none => .ok (none, some .nilDecode)
  | some x => do
    let (_, x, err) ← x.decode b
    return (some x, err.map .lib)

/-- Lines 183-185. -/
structure U64Data where
  U64 : BitVec 64
deriving DecidableEq, Repr

/-- Lines 187-189. -/
def NewU64Data : U64Data := ⟨0⟩

/-- Lines 195-202. -/
def U64Data.Encode (rt : Runtime) (x : Option U64Data) (b : Buffer) : Go Buffer :=
  match x with
  | none => encodeNil rt b
  | some x => encodeUint64 rt b x.U64

/-- Lines 211-223. -/
def U64Data.decode (x : U64Data) (d : _root_.Bytes) : Go (_root_.Bytes × U64Data × Option Err) := do
  let (d, isNil) ← decodeNil d
  if isNil then
    return (d, x, none)
  let (d, v, err) ← decodeUint64 d
  let x := { x with U64 := v }
  if err ≠ none then
    return (d, x, err)
  return (d, x, none)

/-- Lines 204-209. -/
def U64Data.Decode (x : Option U64Data) (b : _root_.Bytes) : Go (Option U64Data × Option Fault) :=
  match x with
  | none => .ok (none, some .nilDecode)
  | some x => do
    let (_, x, err) ← x.decode b
    return (some x, err.map .lib)

end Bench
