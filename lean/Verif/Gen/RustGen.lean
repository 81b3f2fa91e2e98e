import Verif.Gen.Schema
import Verif.Rust.Decode

/-!
# The Rust generator: lookup tables, field classification and the generated `encode`/`decode`

/repo/generator/rust/structs.go and /repo/generator/rust/templates/*.templ (the copy in /repo/v2/generator/rust
differs in import paths only).

As for Go (GoGen.lean), instead of a line of Rust the model has the call that line makes, and a line that
does not type-check is `none` (encoders) or `bad` (decoders).  A struct that contains itself without a `Vec` or
`HashMap` in between has infinite size and does not compile either: `Layout` below.
-/

namespace RustGen

open Gen Spec
open Rust (Cursor Std Dec DecodingError)

/-- The methods of the traits `Encoder` and `Decoder` that take or return one value: `bool` is `encode_bool`
and `decode_bool`, and so on. -/
inductive Method where
  | bytes | string | bool | u8 | u16 | u32 | u64 | i32 | i64 | f32 | f64
deriving DecidableEq, Repr

/-- Rust types that occur in generated structs. -/
inductive Ty where
  | bool | i32 | u32 | i64 | u64 | f32 | f64 | string | bytes
  | u8 | u16
  | enum (ref : Nat)
  | struct (ref : Nat)
  | vec (elem : Ty)
  | hashMap (key value : Ty)
deriving DecidableEq, Repr

/-- generator/rust/structs.go 34-50 -/
def typeLUT : PKind → Option Ty
  | .bool => some .bool
  | .int32 => some .i32
  | .sint32 => some .i32
  | .uint32 => some .u32
  | .int64 => some .i64
  | .sint64 => some .i64
  | .uint64 => some .u64
  | .sfixed32 => some .i32
  | .sfixed64 => some .i64
  | .fixed32 => some .u32
  | .fixed64 => some .u64
  | .float => some .f32
  | .double => some .f64
  | .string => some .string
  | .bytes => some .bytes
  | _ => none

/-- generator/rust/structs.go 52-69 -/
def encodeLUT : PKind → Option Method
  | .bool => some .bool
  | .int32 => some .i32
  | .sint32 => some .i32
  | .uint32 => some .u32
  | .int64 => some .i64
  | .sint64 => some .i64
  | .uint64 => some .u64
  | .sfixed32 => some .i32
  | .sfixed64 => some .i64
  | .fixed32 => some .u32
  | .fixed64 => some .u64
  | .string => some .string
  | .float => some .f32
  | .double => some .f64
  | .bytes => some .bytes
  | .enum => some .u32
  | _ => none

/-- generator/rust/structs.go 71-88 -/
def decodeLUT : PKind → Option Method
  | .bool => some .bool
  | .int32 => some .i32
  | .sint32 => some .i32
  | .uint32 => some .u32
  | .int64 => some .i64
  | .sint64 => some .i64
  | .uint64 => some .u64
  | .sfixed32 => some .i32
  | .sfixed64 => some .i64
  | .fixed32 => some .u32
  | .fixed64 => some .u64
  | .string => some .string
  | .float => some .f32
  | .double => some .f64
  | .bytes => some .bytes
  | .enum => some .u32
  | _ => none

/-- generator/rust/structs.go 90-107 -/
def kindLUT : PKind → Option Rust.Kind
  | .bool => some .Bool
  | .int32 => some .I32
  | .sint32 => some .I32
  | .uint32 => some .U32
  | .int64 => some .I64
  | .sint64 => some .I64
  | .uint64 => some .U64
  | .sfixed32 => some .I32
  | .sfixed64 => some .I64
  | .fixed32 => some .U32
  | .fixed64 => some .U64
  | .string => some .String
  | .float => some .F32
  | .double => some .F64
  | .bytes => some .Bytes
  | .enum => some .U32
  | _ => none

/-- generator/rust/structs.go 225-237 `getKind` (defaults.go 21: `polyglotAnyKind`); `none`: panics. -/
def getKind (kind : PKind) : Option Rust.Kind :=
  match kindLUT kind with
  | some k => some k
  | none => match kind with
    | .message => some .Any
    | _ => none

/-- generator/rust/structs.go 110-144 `findValue` for a field that is no map. -/
def findElem (k : PKind) (ref : Nat) (repeated : Bool) : Option Ty :=
  let wrap (t : Ty) := if repeated then .vec t else t
  match typeLUT k with
  | some t => some (wrap t)
  | none => match k with
    | .enum => some (wrap (.enum ref))
    | .message => some (wrap (.struct ref))
    | _ => none

/-- generator/rust/structs.go 110-144 `findValue`; `none`: panics. -/
def findValue : Field → Option Ty
  | .one k r _ => findElem k r false
  | .many k r => findElem k r true
  | .map kk k r => do
    let kt ← findElem kk 0 false
    let vt ← findElem k r false
    some (.hashMap kt vt)

/-! ## Field classification -/

/-- The form of the argument of an encoder call, for a place of type `T`: an expression of type `T` (`self.x`,
`*v`), of type `&T` (`&self.x`, `item`, `&item`, `k`, `&k`), or a value cast to `u32`. -/
inductive Form where
  | own | ref | cast
deriving DecidableEq, Repr

/-- One element of `encodingFields.Values`: `.encode_x(self.f)`, `.encode_x(&self.f)` or `.encode_x(self.f as u32)`. -/
structure ValueCall where
  method : Method
  field : Nat
  form : Form
deriving DecidableEq, Repr

/-- generator/rust/structs.go 146-150; fields by their index. -/
structure EncodingFields where
  messageFields : List Nat := []
  sliceFields : List Nat := []
  values : List ValueCall := []
deriving DecidableEq, Repr

/-- generator/rust/structs.go 157-181: the loop of `getEncodingFields` from index `i` on. -/
def encLoop : Nat → List Field → Option EncodingFields
  | _, [] => some {}
  | i, f :: fs => do
    let r ← encLoop (i + 1) fs
    if f.Cardinality = .repeated ∧ f.IsMap = false then
      some { r with sliceFields := i :: r.sliceFields }
    else
      match encodeLUT f.Kind with
      | none => match f.Kind with
        | .message => some { r with messageFields := i :: r.messageFields }
        | _ => none
      | some encoder =>
        if f.Kind = .enum then some { r with values := ⟨encoder, i, .cast⟩ :: r.values }
        else if f.Kind = .string then some { r with values := ⟨encoder, i, .ref⟩ :: r.values }
        else if f.Kind = .bytes then some { r with values := ⟨encoder, i, .ref⟩ :: r.values }
        else some { r with values := ⟨encoder, i, .own⟩ :: r.values }

/-- generator/rust/structs.go 152-187 -/
def getEncodingFields (fields : List Field) : Option EncodingFields := encLoop 0 fields

/-- generator/rust/structs.go 189-193; fields by their index. -/
structure DecodingFields where
  messageFields : List Nat := []
  sliceFields : List Nat := []
  other : List Nat := []
deriving DecidableEq, Repr

/-- generator/rust/structs.go 200-216: the loop of `getDecodingFields` from index `i` on. -/
def decLoop : Nat → List Field → Option DecodingFields
  | _, [] => some {}
  | i, f :: fs => do
    let r ← decLoop (i + 1) fs
    if f.Cardinality = .repeated ∧ f.IsMap = false then
      some { r with sliceFields := i :: r.sliceFields }
    else
      match decodeLUT f.Kind with
      | none => match f.Kind with
        | .message => some { r with messageFields := i :: r.messageFields }
        | _ => none
      | some _ => some { r with other := i :: r.other }

/-- generator/rust/structs.go 195-223 -/
def getDecodingFields (fields : List Field) : Option DecodingFields := decLoop 0 fields

/-! ## Generated structs -/

/-- templates/structs.templ 8-22: whether the struct of message type `m` has a finite size, as rustc finds out by
laying out its fields.  A struct inside a struct is laid out in place, `Vec` and `HashMap` are pointers.
`fuel` bounds the nesting. -/
def Layout (S : Schema) : (fuel : Nat) → Nat → Bool
  | 0, _ => false
  | fuel + 1, m => (S.fields m).all fun f =>
    match findValue f with
    | some (.struct r) => Layout S fuel r
    | some _ => true
    | none => false

/-- templates/enums.templ 8-18: the discriminants of the enum generated for an enum type with `n` constants,
`Name = {{ $i }}` for each. -/
def discriminants (n : Nat) : List Nat := List.range n

/-! ## Generated encoders -/

/-- Does the encoder method accept an argument of this form, for a place of this type?  encoder.rs 45-93:
`encode_bytes(self, &[u8])`, `encode_string(self, &String)`, the others take `bool`, `u8` .. `f64` by value.
A reference to a reference is dereferenced by the compiler; nothing else is converted.  `as u32` is applied to enums only. -/
def accepts : Method → Form → Ty → Bool
  | .bool, .own, .bool => true
  | .i32, .own, .i32 => true
  | .u32, .own, .u32 => true
  | .i64, .own, .i64 => true
  | .u64, .own, .u64 => true
  | .f32, .own, .f32 => true
  | .f64, .own, .f64 => true
  | .u8, .own, .u8 => true
  | .u16, .own, .u16 => true
  | .string, .ref, .string => true
  | .bytes, .ref, .bytes => true
  | .u32, .cast, .enum _ => true
  | _, _, _ => false

/-- The item an encoder method writes for a value. -/
def callEnc : Method → Scalar → Option Item
  | .bool, .bool v => some (.bool v)
  | .i32, .int32 v => some (.int32 v)
  | .u32, .uint32 v => some (.uint32 v)
  | .u32, .enum v => some (.uint32 v)
  | .i64, .int64 v => some (.int64 v)
  | .u64, .uint64 v => some (.uint64 v)
  | .f32, .float32 v => some (.float32 v)
  | .f64, .float64 v => some (.float64 v)
  | .string, .string v => some (.string v)
  | .bytes, .bytes v => some (.bytes v)
  | _, _ => none

/-- What a field contributes to `encode`, before the generator has chosen where to put it: a value (of the given
type) that can be passed to an encoder method, the calls of the `encodeSlices` template, or the calls of the
`encodeMessages` template. -/
inductive Part where
  | scalar (t : Ty) (s : Scalar)
  | slice (calls : List Item)
  | encode (calls : List Item)
deriving DecidableEq, Repr

/-- Run `f` on every element and concatenate; `none` if one of them is. -/
def concatM {α : Type} (f : α → Option (List Item)) : List α → Option (List Item)
  | [] => some []
  | a :: as => do
    let x ← f a
    let xs ← concatM f as
    some (x ++ xs)

/-- `b.encode_x(..)?` -/
def emitScalar (m : Method) (form : Form) (t : Ty) (s : Scalar) : Option (List Item) :=
  if accepts m form t then (callEnc m s).map fun i => [i] else none

/-- templates/encode.templ 6: one call of the chain of values. -/
def emitValue (parts : List Part) (c : ValueCall) : Option (List Item) :=
  match parts[c.field]? with
  | some (.scalar t s) => emitScalar c.method c.form t s
  | _ => none

/-- templates/encode.templ 20-38: one iteration over `SliceFields`. -/
def emitSlice (parts : List Part) (i : Nat) : Option (List Item) :=
  match parts[i]? with
  | some (.slice calls) => some calls
  | _ => none

/-- templates/encode.templ 43-75: one iteration over `MessageFields`. -/
def emitMessage (parts : List Part) (i : Nat) : Option (List Item) :=
  match parts[i]? with
  | some (.encode calls) => some calls
  | _ => none

/-- templates/encode.templ 4-14: values, then slices, then messages. -/
def arrange (e : EncodingFields) (parts : List Part) : Option (List Item) := do
  let a ← concatM (emitValue parts) e.values
  let b ← concatM (emitSlice parts) e.sliceFields
  let c ← concatM (emitMessage parts) e.messageFields
  some (a ++ b ++ c)

/-- templates/encode.templ 26 `item.encode(b)?` and 63 `v.encode(b)?`. -/
def emitElemMessage : Part → Option (List Item)
  | .encode calls => some calls
  | _ => none

/-- templates/encode.templ 31-35: `b.encode_x(&item)?` or `b.encode_x(item)?` where `item : &T`. -/
def emitElemScalar (m : Method) : Part → Option (List Item)
  | .scalar t s => emitScalar m .ref t s
  | _ => none

/-- templates/encode.templ 21-37: the header call and the loop over the elements.  The loop body is type-checked
whether or not there are elements. -/
def emitElems (k : PKind) (r n : Nat) (elems : List Part) : Option Part :=
  match encodeLUT k with
  | none =>
    if k = .message then do
      let es ← concatM emitElemMessage elems
      some (.slice (.slice (BitVec.ofNat 32 n) Rust.Kind.Any.toU8 :: es))
    else none
  | some m => do
    let kk ← kindLUT k
    let t ← findElem k r false
    if accepts m .ref t then
      let es ← concatM (emitElemScalar m) elems
      some (.slice (.slice (BitVec.ofNat 32 n) kk.toU8 :: es))
    else none

/-- templates/encode.templ 49-60, `k : &K`: `b.encode_x(&k)?` for strings, `b.encode_x(k)?` otherwise; `k as u32`
is no valid cast of a reference. -/
def emitKey (kk : PKind) (s : Scalar) : Option (List Item) :=
  match encodeLUT kk, findElem kk 0 false with
  | some m, some t => if kk = .enum then none else emitScalar m .ref t s
  | _, _ => none

/-- templates/encode.templ 61-70, `v : &V`: `b.encode_u32(*v as u32)?` for enums, `b.encode_x(*v)?` otherwise. -/
def emitMapValue (k : PKind) (p : Part) : Option (List Item) :=
  match encodeLUT k with
  | none => if k = .message then emitElemMessage p else none
  | some m => match p with
    | .scalar t s => if k = .enum then emitScalar .u32 .cast t s else emitScalar m .own t s
    | _ => none

/-- The loop body 49-70 type-checks. -/
def mapBodyOk (kk k : PKind) (r : Nat) : Bool :=
  (match encodeLUT kk, findElem kk 0 false with
    | some m, some t => kk ≠ .enum && accepts m .ref t
    | _, _ => false) &&
  (match encodeLUT k, findElem k r false with
    | none, some _ => k = .message
    | some m, some t => if k = .enum then accepts .u32 .cast t else accepts m .own t
    | _, none => false)

/-- templates/encode.templ 48-71: the loop over the entries. -/
def emitEntries (kk k : PKind) : List Scalar → List Part → Option (List Item)
  | [], [] => some []
  | s :: ks, p :: ps => do
    let a ← emitKey kk s
    let b ← emitMapValue k p
    let c ← emitEntries kk k ks ps
    some (a ++ b ++ c)
  | _, _ => none

/-- templates/encode.templ 45-71 -/
def emitMap (kk k : PKind) (r : Nat) (ks : List Scalar) (ps : List Part) : Option Part := do
  let keyKind ← getKind kk
  let valKind ← getKind k
  if mapBodyOk kk k r then
    let es ← emitEntries kk k ks ps
    some (.encode (.map (BitVec.ofNat 32 ps.length) keyKind.toU8 valKind.toU8 :: es))
  else none

mutual
/-- What the field `f` with value `v` contributes to the `encode` of its message.  A Rust struct holds no nil
message and no nil map. -/
def part (S : Schema) : Field → V → Option Part
  | .one k r _, .scalar s => (findElem k r false).map fun t => .scalar t s
  | .one k m _, .msg vs => if k = .message then do
      let ps ← parts S (S.fields m) vs
      let e ← getEncodingFields (S.fields m)
      let calls ← arrange e ps
      some (.encode calls)
    else none
  | .many k r, .slice vs => do
    let ps ← elemParts S (.one k r false) vs
    emitElems k r vs.length ps
  | .map kk k r, .map ks vs => do
    let ps ← elemParts S (.one k r false) vs
    emitMap kk k r ks ps
  | _, _ => none
/-- The contributions of all declared fields. -/
def parts (S : Schema) : List Field → List V → Option (List Part)
  | [], [] => some []
  | f :: fs, v :: vs => do
    let p ← part S f v
    let ps ← parts S fs vs
    some (p :: ps)
  | _, _ => none
/-- The contributions of the elements of a vector or the values of a map. -/
def elemParts (S : Schema) (f : Field) : List V → Option (List Part)
  | [] => some []
  | v :: vs => do
    let p ← part S f v
    let ps ← elemParts S f vs
    some (p :: ps)
end

/-- `x.encode(b)` for a message of type `m`: the encoder calls it makes, in order; `none` if the generated code
does not exist or does not compile.  (No encoder call fails: see Rust/Std.lean.) -/
def Encode (S : Schema) (m : Nat) (x : V) : Option (List Item) :=
  match part S (.one .message m false) x with
  | some (.encode calls) => some calls
  | _ => none

/-! ## Generated decoders -/

/-- `Box<dyn Error>`: a `DecodingError`, or the error that was decoded from the input. -/
inductive Fail where
  | decoding (e : DecodingError)
  | remote (message : Bytes)
deriving DecidableEq, Repr

/-- Result of running generated decoding code: a value; an error; a panic; code that does not compile; a call
stack deeper than the given bound. -/
inductive R (α : Type) where
  | ok (a : α)
  | err (e : Fail)
  | panic
  | bad
  | overflow
deriving DecidableEq, Repr

/-- Decoding code: a function of the cursor. -/
def D (α : Type) := Cursor → R α × Cursor

def D.pure {α : Type} (a : α) : D α := fun c => (.ok a, c)

/-- `?` returns early; a panic unwinds. -/
def D.bind {α β : Type} (x : D α) (f : α → D β) : D β := fun c =>
  match x c with
  | (.ok a, c) => f a c
  | (.err e, c) => (.err e, c)
  | (.panic, c) => (.panic, c)
  | (.bad, c) => (.bad, c)
  | (.overflow, c) => (.overflow, c)

instance : Monad D where
  pure := D.pure
  bind := D.bind

def D.bad {α : Type} : D α := fun c => (.bad, c)
def D.overflow {α : Type} : D α := fun c => (.overflow, c)
def D.throw {α : Type} (e : DecodingError) : D α := fun c => (.err (.decoding e), c)

/-- A call of a decoder method followed by `?`. -/
def call {α : Type} (x : Dec α) : D α := fun c =>
  match x c with
  | (.ok a, c) => (.ok a, c)
  | (.err e, c) => (.err (.decoding e), c)
  | (.panic, c) => (.panic, c)

/-- `.ok().ok_or(e)?` after a call of a decoder method. -/
def callOr {α : Type} (x : Dec α) (e : DecodingError) : D α := fun c =>
  match x c with
  | (.ok a, c) => (.ok a, c)
  | (.err _, c) => (.err (.decoding e), c)
  | (.panic, c) => (.panic, c)

/-- `x.ok_or(e)?` -/
def okOr {α : Type} (x : Option α) (e : DecodingError) : D α :=
  match x with
  | some a => pure a
  | none => D.throw e

/-- The Rust type a decoder method returns. -/
def Method.type : Method → Ty
  | .bytes => .bytes
  | .string => .string
  | .bool => .bool
  | .u8 => .u8
  | .u16 => .u16
  | .u32 => .u32
  | .u64 => .u64
  | .i32 => .i32
  | .i64 => .i64
  | .f32 => .f32
  | .f64 => .f64

/-- `b.decode_x()?` (no generated code uses `decode_u8` and `decode_u16`). -/
def decScalar (std : Std) : Method → D Scalar
  | .bytes => do return .bytes (← call (Rust.decode_bytes std))
  | .string => do return .string (← call (Rust.decode_string std))
  | .bool => do return .bool (← call (Rust.decode_bool std))
  | .u32 => do return .uint32 (← call (Rust.decode_u32 std))
  | .u64 => do return .uint64 (← call (Rust.decode_u64 std))
  | .i32 => do return .int32 (← call (Rust.decode_i32 std))
  | .i64 => do return .int64 (← call (Rust.decode_i64 std))
  | .f32 => do return .float32 (← call (Rust.decode_f32 std))
  | .f64 => do return .float64 (← call (Rust.decode_f64 std))
  | .u8 => D.bad
  | .u16 => D.bad

/-- `b.decode_x()?` where a value of type `t` is needed. -/
def assign (std : Std) (m : Method) (t : Ty) : D Scalar :=
  if m.type = t then decScalar std m else D.bad

/-- `E::try_from(n)` derived by `num_enum::TryFromPrimitive`: the constant with that discriminant. -/
def try_from (S : Schema) (r : Nat) (n : BitVec 32) : Option Scalar :=
  if n.toNat ∈ discriminants (S.enums[r]?.getD 0) then some (.enum n) else none

/-- templates/decode.templ 39-46: one iteration over `Other`. -/
def decValue (std : Std) (S : Schema) (f : Field) : D V :=
  match f, decodeLUT f.Kind, findValue f with
  | .one k r _, some m, some t =>
    if k = .enum then do
      let n ← call (Rust.decode_u32 std)
      let s ← okOr (try_from S r n) .InvalidEnum
      pure (.scalar s)
    else do
      let s ← assign std m t
      pure (.scalar s)
  | _, _, _ => D.bad

/-- `T::decode(b)` of the message types. -/
abbrev Callee := Nat → D (Option (List V))

/-- `T::decode(b)?.ok_or(e)?` -/
def nested (rec : Callee) (m : Nat) (e : DecodingError) : D V := do
  let x ← rec m
  let vs ← okOr x e
  pure (.msg vs)

/-- templates/decode.templ 24-28: one element. -/
def decElem (std : Std) (rec : Callee) (k : PKind) (r : Nat) : D V :=
  if k = .message then nested rec r .InvalidArray
  else match decodeLUT k, findElem k r false with
    | some m, some t => do
      let s ← assign std m t
      pure (.scalar s)
    | _, _ => D.bad

/-- templates/decode.templ 23-29: `n` iterations. -/
def decElems (std : Std) (rec : Callee) (k : PKind) (r : Nat) : Nat → D (List V)
  | 0 => pure []
  | n + 1 => do
    let v ← decElem std rec k r
    let vs ← decElems std rec k r n
    pure (v :: vs)

/-- templates/decode.templ 15-31, 47-49: one iteration over `SliceFields`.  Simplification: `Vec::with_capacity`
always succeeds. -/
def decSlice (std : Std) (rec : Callee) (f : Field) : D V :=
  match f, getKind f.Kind, findValue f with
  | .many k r, some kk, some _ => do
    let size ← call (Rust.decode_array std kk)
    let vs ← decElems std rec k r size
    pure (.slice vs)
  | _, _, _ => D.bad

/-- templates/decodeMap.templ 18-26: reading a key. -/
def decKey (std : Std) (kk : PKind) : D Scalar :=
  match decodeLUT kk, findElem kk 0 false with
  | some m, some t => if kk = .enum then D.bad else assign std m t
  | _, _ => D.bad

/-- templates/decodeMap.templ 27-35: reading a value. -/
def decMapValue (std : Std) (S : Schema) (rec : Callee) (k : PKind) (r : Nat) : D V :=
  match decodeLUT k, findElem k r false with
  | none, some _ => if k = .message then nested rec r .InvalidMap else D.bad
  | some m, some t =>
    if k = .enum then
      if m = .u32 then do
        let n ← call (Rust.decode_u32 std)
        let s ← okOr (try_from S r n) .InvalidMap
        pure (.scalar s)
      else D.bad
    else do
      let s ← assign std m t
      pure (.scalar s)
  | _, _ => D.bad

/-- `map.insert(k, v)`: replace the value of a present key, otherwise add an entry. -/
def insert (k : Scalar) (v : V) : List Scalar → List V → List Scalar × List V
  | k' :: ks, v' :: vs => if k = k' then (k' :: ks, v :: vs) else ((k' :: (insert k v ks vs).1), (v' :: (insert k v ks vs).2))
  | _, _ => ([k], [v])

/-- templates/decodeMap.templ 17-37: `n` iterations of the loop. -/
def decEntries (std : Std) (S : Schema) (rec : Callee) (kk k : PKind) (r : Nat) :
    Nat → List Scalar → List V → D (List Scalar × List V)
  | 0, ks, vs => pure (ks, vs)
  | n + 1, ks, vs => do
    let key ← decKey std kk
    let v ← decMapValue std S rec k r
    decEntries std S rec kk k r n (insert key v ks vs).1 (insert key v ks vs).2

/-- templates/decodeMap.templ 4-39: `f_decode(b)`. -/
def decMap (std : Std) (S : Schema) (rec : Callee) (kk k : PKind) (r : Nat) : D (Option V) :=
  match getKind kk, getKind k with
  | some keyKind, some valKind => do
    if ← call (Rust.decode_none std) then pure none
    else do
      let size ← callOr (Rust.decode_map std keyKind valKind) .InvalidU32
      let e ← decEntries std S rec kk k r size [] []
      pure (some (.map e.1 e.2))
  | _, _ => D.bad

/-- templates/decode.templ 50-56: one iteration over `MessageFields`. -/
def decMessage (std : Std) (S : Schema) (rec : Callee) (f : Field) : D V :=
  match f with
  | .map kk k r => do
    let x ← decMap std S rec kk k r
    okOr x .InvalidMap
  | .one _ m _ => nested rec m .InvalidStruct
  | .many .. => D.bad

/-- Evaluate one field initialiser per listed field; `x` holds the values of the struct under construction. -/
def forFields (init : Field → D V) (fields : List Field) : List Nat → List V → D (List V)
  | [], x => pure x
  | i :: is, x =>
    match fields[i]? with
    | some f => do
      let v ← init f
      forFields init fields is (x.set i v)
    | none => D.bad

/-- templates/decode.templ 9-11: `if let Ok(error) = b.decode_error() { return Err(error); }`. -/
def probeError (std : Std) : D Unit := fun c =>
  match Rust.decode_error std c with
  | (.ok m, c) => (.err (.remote m), c)
  | (.err _, c) => (.ok (), c)
  | (.panic, c) => (.panic, c)

/-- templates/decode.templ 38-57: the struct expression; its field initialisers are evaluated as written: values, then
slices, then messages. -/
def decBody (std : Std) (S : Schema) (rec : Callee) (fields : List Field) (d : DecodingFields) : D (List V) := do
  let x ← forFields (decValue std S) fields d.other (List.replicate fields.length .nil)
  let x ← forFields (decSlice std rec) fields d.sliceFields x
  forFields (decMessage std S rec) fields d.messageFields x

/-- templates/decode.templ 4-58: `T::decode(b)` for message type `m`.  `fuel` bounds the depth of the call stack. -/
def decode (std : Std) (S : Schema) : (fuel : Nat) → Callee
  | 0, _ => D.overflow
  | fuel + 1, m => do
    if ← call (Rust.decode_none std) then pure none
    else do
      probeError std
      match getDecodingFields (S.fields m) with
      | none => D.bad
      | some d => do
        let vs ← decBody std S (decode std S fuel) (S.fields m) d
        pure (some vs)

end RustGen
