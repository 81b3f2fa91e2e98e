import Verif.Gen.Schema
import Verif.GoV2.Api
import Verif.GoV1.Decode

/-!
# The Go generators (v1 and v2): lookup tables, field classification and the generated `Encode`/`Decode`

/repo/v2/generator/golang/structs.go and /repo/v2/generator/golang/templates/*.templ.  The v1 generator in
/repo/generator/golang differs in the places listed in `Version` below, in import paths and in the name of the
error variable (`NilDecode` for `ErrDecodeNil`); everything else is the same text.

The generator is modelled up to the text it prints: instead of a line of Go the model has the call that
line makes.  A line that does not type-check is `none` (encoders) or `bad` (decoders): the generated file
does not compile.  `GetEncodingFields` and the like panic on kinds they do not know; `text/template`
turns that into an error of `Generate`, here it is `none`/`bad` as well.  `CustomFields`, `CustomEncode` and
`CustomDecode` are the empty strings they are by default (generator.go 73-75).
-/

namespace GoGen

open Gen Spec
open GoV2 (Req Outcome Err)

/-- The methods of `polyglot.BufferEncoder` and `polyglot.BufferDecoder` that take or return one scalar. -/
inductive Method where
  | Bytes | String | Bool | Uint8 | Uint16 | Uint32 | Uint64 | Int32 | Int64 | Float32 | Float64
deriving DecidableEq, Repr

/-- Go types that occur in generated structs.  `enum r` is the named type generated for enum type `r`. -/
inductive GoType where
  | bool | int32 | uint32 | int64 | uint64 | float32 | float64 | string | bytes
  | uint8 | uint16
  | enum (ref : Nat)
  | pointer (ref : Nat)
  | slice (elem : GoType)
  | map (key value : GoType)
deriving DecidableEq, Repr

/-- v2/generator/golang/structs.go 33-49 -/
def typeLUT : PKind → Option GoType
  | .bool => some .bool
  | .int32 => some .int32
  | .sint32 => some .int32
  | .uint32 => some .uint32
  | .int64 => some .int64
  | .sint64 => some .int64
  | .uint64 => some .uint64
  | .sfixed32 => some .int32
  | .sfixed64 => some .int64
  | .fixed32 => some .uint32
  | .fixed64 => some .uint64
  | .float => some .float32
  | .double => some .float64
  | .string => some .string
  | .bytes => some .bytes
  | _ => none

/-- v2/generator/golang/structs.go 51-68 -/
def encodeLUT : PKind → Option Method
  | .bool => some .Bool
  | .int32 => some .Int32
  | .sint32 => some .Int32
  | .uint32 => some .Uint32
  | .int64 => some .Int64
  | .sint64 => some .Int64
  | .uint64 => some .Uint64
  | .sfixed32 => some .Int32
  | .sfixed64 => some .Int64
  | .fixed32 => some .Uint32
  | .fixed64 => some .Uint64
  | .string => some .String
  | .float => some .Float32
  | .double => some .Float64
  | .bytes => some .Bytes
  | .enum => some .Uint32
  | _ => none

/-- v2/generator/golang/structs.go 70-87 -/
def decodeLUT : PKind → Option Method
  | .bool => some .Bool
  | .int32 => some .Int32
  | .sint32 => some .Int32
  | .uint32 => some .Uint32
  | .int64 => some .Int64
  | .sint64 => some .Int64
  | .uint64 => some .Uint64
  | .sfixed32 => some .Int32
  | .sfixed64 => some .Int64
  | .fixed32 => some .Uint32
  | .fixed64 => some .Uint64
  | .string => some .String
  | .float => some .Float32
  | .double => some .Float64
  | .bytes => some .Bytes
  | .enum => some .Uint32
  | _ => none

/-- v2/generator/golang/structs.go 89-106; the constants (`polyglot.BoolKind = Kind(BoolRawKind)`) are those of v2/encode.go 24-62. -/
def kindLUT : PKind → Option Byte
  | .bool => some GoV2.BoolRawKind
  | .int32 => some GoV2.Int32RawKind
  | .sint32 => some GoV2.Int32RawKind
  | .uint32 => some GoV2.Uint32RawKind
  | .int64 => some GoV2.Int64RawKind
  | .sint64 => some GoV2.Int64RawKind
  | .uint64 => some GoV2.Uint64RawKind
  | .sfixed32 => some GoV2.Int32RawKind
  | .sfixed64 => some GoV2.Int64RawKind
  | .fixed32 => some GoV2.Uint32RawKind
  | .fixed64 => some GoV2.Uint64RawKind
  | .string => some GoV2.StringRawKind
  | .float => some GoV2.Float32RawKind
  | .double => some GoV2.Float64RawKind
  | .bytes => some GoV2.BytesRawKind
  | .enum => some GoV2.Uint32RawKind
  | _ => none

/-- v2/generator/golang/structs.go 224-236 `GetKind`; `none`: panics. -/
def GetKind (kind : PKind) : Option Byte :=
  match kindLUT kind with
  | some k => some k
  | none => match kind with
    | .message => some GoV2.AnyRawKind
    | _ => none

/-- v2/generator/golang/structs.go 109-143 `FindValue` for a field that is no map (also for `MapKey` and
`MapValue`, which are singular). -/
def FindElem (k : PKind) (ref : Nat) (repeated : Bool) : Option GoType :=
  let wrap (t : GoType) := if repeated then .slice t else t
  match typeLUT k with
  | some t => some (wrap t)
  | none => match k with
    | .enum => some (wrap (.enum ref))
    | .message => some (wrap (.pointer ref))
    | _ => none

/-- v2/generator/golang/structs.go 109-143 `FindValue`; the map type is the one declared in
templates/structs.templ 14. `none`: panics. -/
def FindValue : Field → Option GoType
  | .one k r _ => FindElem k r false
  | .many k r => FindElem k r true
  | .map kk k r => do
    let kt ← FindElem kk 0 false
    let vt ← FindElem k r false
    some (.map kt vt)

/-! ## Field classification -/

/-- One element of `EncodingFields.Values`: `.Method(x.Field)`, or `.Method(uint32(x.Field))` with `cast`. -/
structure ValueCall where
  method : Method
  field : Nat
  cast : Bool
deriving DecidableEq, Repr

/-- v2/generator/golang/structs.go 145-149; fields by their index. -/
structure EncodingFields where
  messageFields : List Nat := []
  sliceFields : List Nat := []
  values : List ValueCall := []
deriving DecidableEq, Repr

/-- v2/generator/golang/structs.go 156-177: the loop of `GetEncodingFields` from index `i` on. -/
def encLoop : Nat → List Field → Option EncodingFields
  | _, [] => some {}
  | i, f :: fs => do
    let r ← encLoop (i + 1) fs
    if f.Cardinality = .repeated ∧ f.IsMap = false then
      some { r with sliceFields := i :: r.sliceFields }
    else
      match encodeLUT f.Kind with
      | none => match f.Kind with
        | .message => some { r with messageFields := i :: r.messageFields }
        | _ => none
      | some encoder =>
        if f.Kind = .enum then some { r with values := ⟨encoder, i, true⟩ :: r.values }
        else some { r with values := ⟨encoder, i, false⟩ :: r.values }

/-- v2/generator/golang/structs.go 151-183 -/
def GetEncodingFields (fields : List Field) : Option EncodingFields := encLoop 0 fields

/-- v2/generator/golang/structs.go 185-189; fields by their index. -/
structure DecodingFields where
  messageFields : List Nat := []
  sliceFields : List Nat := []
  other : List Nat := []
deriving DecidableEq, Repr

/-- v2/generator/golang/structs.go 196-213: the loop of `GetDecodingFields` from index `i` on. -/
def decLoop : Nat → List Field → Option DecodingFields
  | _, [] => some {}
  | i, f :: fs => do
    let r ← decLoop (i + 1) fs
    if f.Cardinality = .repeated ∧ f.IsMap = false then
      some { r with sliceFields := i :: r.sliceFields }
    else
      match decodeLUT f.Kind with
      | none => match f.Kind with
        | .message => some { r with messageFields := i :: r.messageFields }
        | _ => none
      | some _ => some { r with other := i :: r.other }

/-- v2/generator/golang/structs.go 191-220 -/
def GetDecodingFields (fields : List Field) : Option DecodingFields := decLoop 0 fields

/-! ## Generated encoders -/

/-- `polyglot.Encoder(b).Method(v)`: the item written, or `none` if `v` has the wrong type. -/
def callEnc : Method → Scalar → Option Item
  | .Bool, .bool v => some (.bool v)
  | .Int32, .int32 v => some (.int32 v)
  | .Uint32, .uint32 v => some (.uint32 v)
  | .Int64, .int64 v => some (.int64 v)
  | .Uint64, .uint64 v => some (.uint64 v)
  | .Float32, .float32 v => some (.float32 v)
  | .Float64, .float64 v => some (.float64 v)
  | .String, .string v => some (.string v)
  | .Bytes, .bytes v => some (.bytes v)
  | _, _ => none

/-- The conversion `uint32(x)`; it is applied to enum values only. -/
def castU32 : Scalar → Option Scalar
  | .enum v => some (.uint32 v)
  | .uint32 v => some (.uint32 v)
  | _ => none

/-- What a field contributes to `Encode`, before the generator has chosen where to put it: a value that can be
passed to an encoder method, the calls of the `encodeSlices` template, or the calls of `x.Field.Encode(b)`. -/
inductive Part where
  | scalar (s : Scalar)
  | slice (calls : List Item)
  | encode (calls : List Item)
deriving DecidableEq, Repr

/-- Run `f` on every element and concatenate; `none` if one of them is. -/
def concatM {α : Type} (f : α → Option (List Item)) : List α → Option (List Item)
  | [] => some []
  | a :: as => do
    let x ← f a
    let xs ← concatM f as
    some (x ++ xs)

/-- `.Method(x.Field)` or `.Method(uint32(x.Field))` -/
def emitScalar (m : Method) (cast : Bool) (s : Scalar) : Option (List Item) := do
  let s ← if cast then castU32 s else some s
  let i ← callEnc m s
  some [i]

/-- templates/encode.templ 7-9: one call of the chain of values. -/
def emitValue (parts : List Part) (c : ValueCall) : Option (List Item) :=
  match parts[c.field]? with
  | some (.scalar s) => emitScalar c.method c.cast s
  | _ => none

/-- templates/encode.templ 22-34: one iteration over `SliceFields`. -/
def emitSlice (parts : List Part) (i : Nat) : Option (List Item) :=
  match parts[i]? with
  | some (.slice calls) => some calls
  | _ => none

/-- templates/encode.templ 37-41: `x.Field.Encode(b)`. -/
def emitMessage (parts : List Part) (i : Nat) : Option (List Item) :=
  match parts[i]? with
  | some (.encode calls) => some calls
  | _ => none

/-- templates/encode.templ 5-17: values, then slices, then messages. -/
def arrange (e : EncodingFields) (parts : List Part) : Option (List Item) := do
  let a ← concatM (emitValue parts) e.values
  let b ← concatM (emitSlice parts) e.sliceFields
  let c ← concatM (emitMessage parts) e.messageFields
  some (a ++ b ++ c)

/-- templates/encode.templ 24-26, `v.Encode(b)` for an element of a slice of messages; also
templates/encodeMap.templ 24. -/
def emitElemMessage : Part → Option (List Item)
  | .encode calls => some calls
  | _ => none

/-- templates/encode.templ 29-31, `.Method(v)` for an element of another slice (no conversion of enums). -/
def emitElemScalar (m : Method) : Part → Option (List Item)
  | .scalar s => emitScalar m false s
  | _ => none

/-- templates/encode.templ 23-33: the header call and the loop over the elements. -/
def emitElems (k : PKind) (n : Nat) (elems : List Part) : Option Part :=
  match encodeLUT k with
  | none =>
    if k = .message then do
      let es ← concatM emitElemMessage elems
      some (.slice (.slice (BitVec.ofNat 32 n) GoV2.AnyRawKind :: es))
    else none
  | some m => do
    let kk ← kindLUT k
    let es ← concatM (emitElemScalar m) elems
    some (.slice (.slice (BitVec.ofNat 32 n) kk :: es))

/-- templates/encodeMap.templ 12-20: the key of an entry. -/
def emitKey (kk : PKind) (s : Scalar) : Option (List Item) :=
  match encodeLUT kk with
  | none => none
  | some m => emitScalar m (kk = .enum) s

/-- templates/encodeMap.templ 22-30: the value of an entry. -/
def emitMapValue (k : PKind) (p : Part) : Option (List Item) :=
  match encodeLUT k with
  | none => if k = .message then emitElemMessage p else none
  | some m => match p with
    | .scalar s => emitScalar m (k = .enum) s
    | _ => none

/-- templates/encodeMap.templ 10-31: the loop over the entries. -/
def emitEntries (kk k : PKind) : List Scalar → List Part → Option (List Item)
  | [], [] => some []
  | s :: ks, p :: ps => do
    let a ← emitKey kk s
    let b ← emitMapValue k p
    let c ← emitEntries kk k ks ps
    some (a ++ b ++ c)
  | _, _ => none

/-- templates/encodeMap.templ 2-33 -/
def emitMap (kk k : PKind) (ks : List Scalar) (ps : List Part) : Option Part := do
  let keyKind ← GetKind kk
  let valKind ← GetKind k
  let es ← emitEntries kk k ks ps
  some (.encode (.map (BitVec.ofNat 32 ps.length) keyKind valKind :: es))

mutual
/-- What the field `f` with value `v` contributes to the `Encode` of its message. -/
def part (S : Schema) : Field → V → Option Part
  | .one .., .scalar s => some (.scalar s)
  -- templates/encode.templ 3-4: `x == nil`
  | .one k _ _, .nil => if k = .message then some (.encode [.nil]) else none
  -- templates/encode.templ 5-18
  | .one k m _, .msg vs => if k = .message then do
      let ps ← parts S (S.fields m) vs
      let e ← GetEncodingFields (S.fields m)
      let calls ← arrange e ps
      some (.encode calls)
    else none
  | .many k r, .slice vs => do
    let ps ← elemParts S (.one k r false) vs
    emitElems k vs.length ps
  | .map kk k _, .nilMap => emitMap kk k [] []
  | .map kk k r, .map ks vs => do
    let ps ← elemParts S (.one k r false) vs
    emitMap kk k ks ps
  | _, _ => none
/-- The contributions of all declared fields. -/
def parts (S : Schema) : List Field → List V → Option (List Part)
  | [], [] => some []
  | f :: fs, v :: vs => do
    let p ← part S f v
    let ps ← parts S fs vs
    some (p :: ps)
  | _, _ => none
/-- The contributions of the elements of a slice or the values of a map. -/
def elemParts (S : Schema) (f : Field) : List V → Option (List Part)
  | [] => some []
  | v :: vs => do
    let p ← part S f v
    let ps ← elemParts S f vs
    some (p :: ps)
end

/-- `x.Encode(b)` for a message of type `m` (`x` is `nil` or a message): the encoder calls it makes, in
order; `none` if the generated code does not exist or does not compile. -/
def Encode (S : Schema) (m : Nat) (x : V) : Option (List Item) :=
  match part S (.one .message m false) x with
  | some (.encode calls) => some calls
  | _ => none

/-! ## Generated decoders -/

/-- The places where the code generated by v1 and v2 differs. -/
structure Version where
  /-- the argument of `d.Bytes`: the present value of the field (v2 templates/decode.templ 25) or nil (v1 27) -/
  bytesScratch : Bool
  /-- a singular message field: `if !d.Nil() { x.F = NewM(); err = x.F.decode(d) }` (v2 templates/decode.templ 82-88) or
  `if x.F == nil { x.F = NewM() }; err = x.F.decode(d)` (v1 84-90) -/
  skipNil : Bool
  /-- `NewM` allocates the singular message fields too (v1 templates/structs.templ 41-48; v2 41 does not) -/
  allocates : Bool
deriving DecidableEq, Repr

def v1 : Version := ⟨false, false, true⟩
def v2 : Version := ⟨true, true, false⟩

/-- Result of running generated decoding code: the unread bytes and a value; a Go error; a run-time panic; code
that does not compile; a call stack deeper than the given bound. -/
inductive R (α : Type) where
  | ok (rest : Bytes) (a : α)
  | err (e : Err)
  | panic
  | bad
  | overflow
deriving DecidableEq, Repr

/-- Decoding code: a function of the unread bytes.  Returning a non-nil error ends the whole `Decode` (every
generated call is followed by `if err != nil { return err }`); what the struct holds then is not modelled. -/
abbrev D (α : Type) := Bytes → R α

def D.pure {α : Type} (a : α) : D α := fun b => .ok b a

def D.bind {α β : Type} (x : D α) (f : α → D β) : D β := fun b =>
  match x b with
  | .ok r a => f a r
  | .err e => .err e
  | .panic => .panic
  | .bad => .bad
  | .overflow => .overflow

instance : Monad D where
  pure := D.pure
  bind := D.bind

def D.bad {α : Type} : D α := fun _ => .bad
def D.overflow {α : Type} : D α := fun _ => .overflow

/-- The decoder methods of a version of the library. -/
abbrev Codec := Req → Bytes → Go (Bytes × Outcome)

/-- `v, err := d.Method(..); if err != nil { return err }` -/
def read (rd : Codec) (q : Req) : D Item := fun b =>
  match rd q b with
  | .panic => .panic
  | .ok (r, .value i) => .ok r i
  | .ok (_, .error e) => .err e
  | .ok (_, .notNil) => .bad

/-- `d.Nil()` -/
def isNil (rd : Codec) : D Bool := fun b =>
  match rd .nil b with
  | .panic => .panic
  | .ok (r, .value _) => .ok r true
  | .ok (r, .notNil) => .ok r false
  | .ok (_, .error e) => .err e

/-- The decoder call behind a method name; `Bytes` takes a scratch slice. -/
def Method.req (m : Method) (scratch : _root_.Bytes) : Req :=
  match m with
  | .Bytes => .bytes scratch
  | .String => .string
  | .Bool => .bool
  | .Uint8 => .uint8
  | .Uint16 => .uint16
  | .Uint32 => .uint32
  | .Uint64 => .uint64
  | .Int32 => .int32
  | .Int64 => .int64
  | .Float32 => .float32
  | .Float64 => .float64

/-- The Go type a decoder method returns. -/
def Method.type : Method → GoType
  | .Bytes => .bytes
  | .String => .string
  | .Bool => .bool
  | .Uint8 => .uint8
  | .Uint16 => .uint16
  | .Uint32 => .uint32
  | .Uint64 => .uint64
  | .Int32 => .int32
  | .Int64 => .int64
  | .Float32 => .float32
  | .Float64 => .float64

/-- The value a scalar decoder method returns. -/
def ofItem : Item → Option Scalar
  | .bool v => some (.bool v)
  | .int32 v => some (.int32 v)
  | .uint32 v => some (.uint32 v)
  | .int64 v => some (.int64 v)
  | .uint64 v => some (.uint64 v)
  | .float32 v => some (.float32 v)
  | .float64 v => some (.float64 v)
  | .string v => some (.string v)
  | .bytes v => some (.bytes v)
  | _ => none

/-- `x.Field, err = d.Method(scratch)` where `x.Field` has type `t`. -/
def assign (rd : Codec) (m : Method) (scratch : _root_.Bytes) (t : GoType) : D Scalar :=
  if m.type = t then do
    let i ← read rd (m.req scratch)
    match ofItem i with
    | some s => pure s
    | none => D.bad
  else D.bad

/-- `var Temp uint32; Temp, err = d.Method(); x.Field = Enum(Temp)` -/
def assignEnum (rd : Codec) (m : Method) : D Scalar :=
  if m.type = .uint32 then do
    match ← read rd (m.req []) with
    | .uint32 v => pure (.enum v)
    | _ => D.bad
  else D.bad

/-- The bytes held by a field of type `[]byte`. -/
def scratchOf : V → Bytes
  | .scalar (.bytes v) => v
  | _ => []

/-- templates/decode.templ 22-37: one iteration over `Other`; `old` is the present value of the field.
`scratch` says whether the version passes the old value of a `bytes` field to the decoder (v2) or nil (v1). -/
def decValue (rd : Codec) (scratch : Bool) (f : Field) (old : V) : D V :=
  match decodeLUT f.Kind, FindValue f with
  | some m, some t =>
    if f.Kind = .bytes then do
      let s ← assign rd m (if scratch then scratchOf old else []) t
      pure (.scalar s)
    else if f.Kind = .enum then do
      let s ← assignEnum rd m
      pure (.scalar s)
    else if m = .Bytes then D.bad -- `d.Bytes()` lacks an argument
    else do
      let s ← assign rd m [] t
      pure (.scalar s)
  | _, _ => D.bad

/-- The zero value of a Go type: what a fresh struct holds.  (Values of named types are not told apart from
those of the underlying type, except for enums.) -/
def zero : GoType → V
  | .bool => .scalar (.bool false)
  | .int32 => .scalar (.int32 0)
  | .uint32 => .scalar (.uint32 0)
  | .int64 => .scalar (.int64 0)
  | .uint64 => .scalar (.uint64 0)
  | .float32 => .scalar (.float32 0)
  | .float64 => .scalar (.float64 0)
  | .string => .scalar (.string [])
  | .bytes => .scalar (.bytes [])
  | .enum _ => .scalar (.enum 0)
  | .pointer _ => .nil
  | .slice _ => .slice []
  | .map _ _ => .nilMap
  | .uint8 => .scalar (.uint32 0)
  | .uint16 => .scalar (.uint32 0)

/-- The generated functions that other generated functions call: `NewM()` and `x.decode(d)` on a struct with
the given field values. -/
structure Callees where
  new : Nat → D (List V)
  decode : Nat → List V → D (List V)

/-- v2 templates/structs.templ 39-43, v1 39-50: one field of the struct `NewM` returns. -/
def newField (ver : Version) (new : Nat → Option (List V)) (f : Field) : Option V :=
  if ver.allocates ∧ f.Kind = .message ∧ f.Cardinality ≠ .repeated then
    match f with
    | .one _ r _ => (new r).map .msg
    | _ => none
  else (FindValue f).map zero

/-- All fields, in order. -/
def newFields (ver : Version) (new : Nat → Option (List V)) : List Field → Option (List V)
  | [] => some []
  | f :: fs => do
    let v ← newField ver new f
    let vs ← newFields ver new fs
    some (v :: vs)

/-- `NewM()`; `none` if the call stack is deeper than `fuel` (or the code does not compile). -/
def New (ver : Version) (S : Schema) : (fuel : Nat) → Nat → Option (List V)
  | 0, _ => none
  | fuel + 1, m => newFields ver (New ver S fuel) (S.fields m)

/-- `NewM()` inside decoding code. -/
def callNew (ver : Version) (S : Schema) (fuel : Nat) (m : Nat) : D (List V) := fun b =>
  match New ver S fuel m with
  | some fs => .ok b fs
  | none => .overflow

/-- The struct `x` points to after `if x == nil { x = New() }`. -/
def current (rec : Callees) (m : Nat) (old : V) : D (List V) :=
  match old with
  | .msg fs => pure fs
  | _ => rec.new m

/-- `if x == nil { x = New() }; x.decode(d)`, templates/decode.templ 54-57. -/
def decInto (rec : Callees) (m : Nat) (old : V) : D V := do
  let fs ← current rec m old
  let fs ← rec.decode m fs
  pure (.msg fs)

/-- templates/decode.templ 51-64: the loop over the elements, which hold `old`. -/
def decElems (rd : Codec) (rec : Callees) (k : PKind) (r : Nat) : List V → D (List V)
  | [] => pure []
  | old :: olds => do
    let v ← (if k = .message then decInto rec r old
      else match decodeLUT k, FindElem k r false with
        | some m, some t => if m = .Bytes then D.bad else do
            let s ← assign rd m [] t
            pure (.scalar s)
        | _, _ => D.bad)
    let vs ← decElems rd rec k r olds
    pure (v :: vs)

/-- The elements of a slice. -/
def elems : V → List V
  | .slice vs => vs
  | _ => []

/-- templates/decode.templ 42-65: one iteration over `SliceFields`. -/
def decSlice (rd : Codec) (rec : Callees) (f : Field) (old : V) : D V :=
  match GetKind f.Kind, f with
  | some kk, .many k r => do
    match ← read rd (.slice kk) with
    | .slice sliceSize _ => do
      let cur := if BitVec.ofNat 32 (elems old).length ≠ sliceSize
        then List.replicate sliceSize.toNat (((FindElem k r false).map zero).getD .nil)
        else elems old
      let vs ← decElems rd rec k r cur
      pure (.slice vs)
    | _ => D.bad
  | _, _ => D.bad

/-- templates/decodeMap.templ 16-29: reading a key. -/
def decKey (rd : Codec) (kk : PKind) : D Scalar :=
  match decodeLUT kk, FindElem kk 0 false with
  | some m, some t =>
    if kk = .enum then assignEnum rd m
    else if m = .Bytes then D.bad
    else assign rd m [] t
  | _, _ => D.bad

/-- templates/decodeMap.templ 30-43: reading a value. -/
def decMapValue (rd : Codec) (rec : Callees) (k : PKind) (r : Nat) : D V :=
  match decodeLUT k, FindElem k r false with
  | none, _ => if k = .message then decInto rec r .nil else D.bad
  | some m, some t =>
    if k = .enum then do
      let s ← assignEnum rd m
      pure (.scalar s)
    else if m = .Bytes then D.bad
    else do
      let s ← assign rd m [] t
      pure (.scalar s)
  | _, _ => D.bad

/-- `x[k] = v`: replace the value of a present key, otherwise add an entry. -/
def put (k : Scalar) (v : V) : List Scalar → List V → List Scalar × List V
  | k' :: ks, v' :: vs => if k = k' then (k' :: ks, v :: vs) else ((k' :: (put k v ks vs).1), (v' :: (put k v ks vs).2))
  | _, _ => ([k], [v])

/-- templates/decodeMap.templ 15-48: `n` iterations of the loop. -/
def decEntries (rd : Codec) (rec : Callees) (kk k : PKind) (r : Nat) :
    Nat → List Scalar → List V → D (List Scalar × List V)
  | 0, ks, vs => pure (ks, vs)
  | n + 1, ks, vs => do
    let key ← decKey rd kk
    let v ← decMapValue rd rec k r
    decEntries rd rec kk k r n (put key v ks vs).1 (put key v ks vs).2

/-- templates/decode.templ 66-91: one iteration over `MessageFields`; `old` is the present value. -/
def decMessage (ver : Version) (rd : Codec) (rec : Callees) (f : Field) (old : V) : D V :=
  match f with
  | .map kk k r =>
    match GetKind kk, GetKind k with
    | some keyKind, some valKind => do
      if ← isNil rd then pure old
      else match ← read rd (.map keyKind valKind) with
        | .map size _ _ => do
          -- templates/decodeMap.templ 3-5 returns at once when the size is 0
          let e ← decEntries rd rec kk k r size.toNat [] []
          pure (.map e.1 e.2)
        | _ => D.bad
    | _, _ => D.bad
  | .one _ m _ =>
    if ver.skipNil then do
      if ← isNil rd then pure old else decInto rec m .nil
    else decInto rec m old
  | .many .. => D.bad

/-- Run one statement per listed field, each reading and updating its field of the struct. -/
def forFields (stmt : Field → V → D V) (fields : List Field) : List Nat → List V → D (List V)
  | [], x => pure x
  | i :: is, x =>
    match fields[i]?, x[i]? with
    | some f, some old => do
      let v ← stmt f old
      forFields stmt fields is (x.set i v)
    | _, _ => D.bad

/-- templates/decode.templ 16-19 declares `err` if there is any field; values, slices and messages use it, but
maps declare a variable of their own (line 71).  Go does not compile a function with an unused variable. -/
def errUsed (fields : List Field) (d : DecodingFields) : Bool :=
  d.messageFields.isEmpty || !d.other.isEmpty || !d.sliceFields.isEmpty ||
    d.messageFields.any fun i => (fields[i]?.map Field.IsMap) = some false

/-- templates/decode.templ 22-91: values, then slices, then messages. -/
def decBody (ver : Version) (rd : Codec) (rec : Callees) (fields : List Field) (d : DecodingFields) (x : List V) : D (List V) := do
  let x ← forFields (decValue rd ver.bytesScratch) fields d.other x
  let x ← forFields (decSlice rd rec) fields d.sliceFields x
  forFields (decMessage ver rd rec) fields d.messageFields x

/-- templates/decode.templ 10-93: `x.decode(d)` for a message of type `m` whose fields hold `x`.  `fuel` bounds
the depth of the call stack. -/
def decode (ver : Version) (rd : Codec) (S : Schema) : (fuel : Nat) → Nat → List V → D (List V)
  | 0, _, _ => D.overflow
  | fuel + 1, m, x => do
    if ← isNil rd then pure x
    else match GetDecodingFields (S.fields m) with
      | none => D.bad
      | some d =>
        if errUsed (S.fields m) d then
          decBody ver rd ⟨callNew ver S fuel, decode ver rd S fuel⟩ (S.fields m) d x
        else D.bad

/-- Result of the exported `Decode`. -/
inductive DecodeResult where
  /-- nil was returned; the fields of the struct now -/
  | ok (fields : List V)
  | errDecodeNil
  | err (e : Err)
  | panic
  | bad
  | overflow
deriving Repr

/-- The v1 decoder methods.  `polyglot.UInt32Kind` and so on are one-byte slices there; `scratch` is nil unless
given. -/
def v1Codec : Codec := fun q b =>
  GoV1.readItem (match q with
    | .nil => .nil
    | .map k v => .map [k] [v]
    | .slice k => .slice [k]
    | .bytes scratch => .bytes (if scratch = [] then none else some scratch)
    | .string => .string
    | .error => .error
    | .bool => .bool
    | .uint8 => .uint8
    | .uint16 => .uint16
    | .uint32 => .uint32
    | .uint64 => .uint64
    | .int32 => .int32
    | .int64 => .int64
    | .float32 => .float32
    | .float64 => .float64) b

/-- The library a version of the generated code is written against. -/
def Version.codec (ver : Version) : Codec := if ver = v1 then v1Codec else GoV2.readItem

/-- v2 templates/decode.templ 1-8, v1 1-10: `x.Decode(b)`.  Unread bytes are ignored.  (v1 takes a decoder from
a pool and returns it at the end: see GoV1/Pool.lean.) -/
def Decode (ver : Version) (S : Schema) (fuel : Nat) (m : Nat) (x : V) (b : Bytes) : DecodeResult :=
  match x with
  | .msg fs => match decode ver ver.codec S fuel m fs b with
    | .ok _ fs => .ok fs
    | .err e => .err e
    | .panic => .panic
    | .bad => .bad
    | .overflow => .overflow
  | _ => .errDecodeNil

end GoGen
