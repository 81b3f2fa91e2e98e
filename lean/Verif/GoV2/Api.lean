import Verif.GoV2.Decode
import Verif.Spec.Wire

/-!
# The v2 API: `BufferEncoder` and `BufferDecoder` methods

`/repo/v2/encoder.go` and `/repo/v2/decoder.go` only forward to the functions of `Encode.lean` and
`Decode.lean`; here one method call is one value of `Spec.Item` (encoder) or of `Req` (decoder).
-/

namespace GoV2

open Spec

/-- v2/encoder.go 25-98: one encoder method call.  (`Error(nil)` is not an item, see `encodeError`.) -/
def encodeItem (rt : Runtime) (b : Buffer) : Item → Go Buffer
  | .nil => encodeNil rt b
  | .map size k v => encodeMap rt b size k v
  | .slice size k => encodeSlice rt b size k
  | .bytes v => encodeBytes rt b v
  | .string v => encodeString rt b v
  | .error m => encodeError rt b (some m)
  | .bool v => encodeBool rt b v
  | .uint8 v => encodeUint8 rt b v
  | .uint16 v => encodeUint16 rt b v
  | .uint32 v => encodeUint32 rt b v
  | .uint64 v => encodeUint64 rt b v
  | .int32 v => encodeInt32 rt b v
  | .int64 v => encodeInt64 rt b v
  | .float32 v => encodeFloat32 rt b v
  | .float64 v => encodeFloat64 rt b v

/-- A chain of encoder method calls on one buffer. -/
def encodeItems (rt : Runtime) (b : Buffer) : List Item → Go Buffer
  | [] => .ok b
  | i :: is => do
    let b ← encodeItem rt b i
    encodeItems rt b is

/-- A decoder method call with its arguments. -/
inductive Req where
  | nil
  | map (keyKind valueKind : Kind)
  | slice (kind : Kind)
  | bytes (ret : Bytes)
  | string
  | error
  | bool
  | uint8
  | uint16
  | uint32
  | uint64
  | int32
  | int64
  | float32
  | float64
deriving DecidableEq, Repr

/-- What a decoder method call reports. -/
inductive Outcome where
  /-- success, with the value read -/
  | value (i : Item)
  /-- `Nil()` returned false -/
  | notNil
  /-- a non-nil error was returned -/
  | error (e : Err)
deriving DecidableEq, Repr

def Outcome.ofErr (e : Option Err) (i : Item) : Outcome :=
  match e with
  | none => .value i
  | some e => .error e

/-- v2/decoder.go 26-99: one decoder method call on the unread bytes `b`; returns the new unread bytes
and the outcome. -/
def readItem (q : Req) (b : Bytes) : Go (Bytes × Outcome) :=
  match q with
  | .nil => do
    let (r, v) ← decodeNil b
    return (r, if v then .value .nil else .notNil)
  | .map k v => do
    let (r, size, e) ← decodeMap b k v
    return (r, .ofErr e (.map size k v))
  | .slice k => do
    let (r, size, e) ← decodeSlice b k
    return (r, .ofErr e (.slice size k))
  | .bytes ret => do
    let (r, v, e) ← decodeBytes b ret
    return (r, .ofErr e (.bytes v))
  | .string => do
    let (r, v, e) ← decodeString b
    return (r, .ofErr e (.string v))
  | .error => do
    let (r, v, e) ← decodeError b
    return (r, .ofErr e (.error (v.getD [])))
  | .bool => do
    let (r, v, e) ← decodeBool b
    return (r, .ofErr e (.bool v))
  | .uint8 => do
    let (r, v, e) ← decodeUint8 b
    return (r, .ofErr e (.uint8 v))
  | .uint16 => do
    let (r, v, e) ← decodeUint16 b
    return (r, .ofErr e (.uint16 v))
  | .uint32 => do
    let (r, v, e) ← decodeUint32 b
    return (r, .ofErr e (.uint32 v))
  | .uint64 => do
    let (r, v, e) ← decodeUint64 b
    return (r, .ofErr e (.uint64 v))
  | .int32 => do
    let (r, v, e) ← decodeInt32 b
    return (r, .ofErr e (.int32 v))
  | .int64 => do
    let (r, v, e) ← decodeInt64 b
    return (r, .ofErr e (.int64 v))
  | .float32 => do
    let (r, v, e) ← decodeFloat32 b
    return (r, .ofErr e (.float32 v))
  | .float64 => do
    let (r, v, e) ← decodeFloat64 b
    return (r, .ofErr e (.float64 v))

/-- A sequence of decoder method calls. -/
def readAll : List Req → Bytes → Go (Bytes × List Outcome)
  | [], b => .ok (b, [])
  | q :: qs, b => do
    let (b, o) ← readItem q b
    let (b, os) ← readAll qs b
    return (b, o :: os)

/-- The decoder call that matches an encoder call: same type, same kinds; any scratch slice. -/
inductive Matches : Req → Item → Prop
  | nil : Matches .nil .nil
  | map (size k v) : Matches (.map k v) (.map size k v)
  | slice (size k) : Matches (.slice k) (.slice size k)
  | bytes (ret v) : Matches (.bytes ret) (.bytes v)
  | string (v) : Matches .string (.string v)
  | error (m) : Matches .error (.error m)
  | bool (v) : Matches .bool (.bool v)
  | uint8 (v) : Matches .uint8 (.uint8 v)
  | uint16 (v) : Matches .uint16 (.uint16 v)
  | uint32 (v) : Matches .uint32 (.uint32 v)
  | uint64 (v) : Matches .uint64 (.uint64 v)
  | int32 (v) : Matches .int32 (.int32 v)
  | int64 (v) : Matches .int64 (.int64 v)
  | float32 (v) : Matches .float32 (.float32 v)
  | float64 (v) : Matches .float64 (.float64 v)

/-- The call sequence matches the item sequence position by position. -/
inductive MatchesAll : List Req → List Item → Prop
  | nil : MatchesAll [] []
  | cons {q i qs is} : Matches q i → MatchesAll qs is → MatchesAll (q :: qs) (i :: is)

/-- The kind byte a request asks for. -/
def Req.kind : Req → Byte
  | .nil => kNil
  | .map .. => kMap
  | .slice .. => kSlice
  | .bytes .. => kBytes
  | .string => kString
  | .error => kError
  | .bool => kBool
  | .uint8 => kUint8
  | .uint16 => kUint16
  | .uint32 => kUint32
  | .uint64 => kUint64
  | .int32 => kInt32
  | .int64 => kInt64
  | .float32 => kFloat32
  | .float64 => kFloat64

/-- The outcome a request reports when the input is not of its type. -/
def Req.invalid : Req → Outcome
  | .nil => .notNil
  | .map .. => .error .InvalidMap
  | .slice .. => .error .InvalidSlice
  | .bytes .. => .error .InvalidBytes
  | .string => .error .InvalidString
  | .error => .error .InvalidError
  | .bool => .error .InvalidBool
  | .uint8 => .error .InvalidUint8
  | .uint16 => .error .InvalidUint16
  | .uint32 => .error .InvalidUint32
  | .uint64 => .error .InvalidUint64
  | .int32 => .error .InvalidInt32
  | .int64 => .error .InvalidInt64
  | .float32 => .error .InvalidFloat32
  | .float64 => .error .InvalidFloat64

end GoV2
