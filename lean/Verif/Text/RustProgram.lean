import Verif.Text.RustAst
import Verif.Text.RustDescr
import Verif.Text.GoProgram

/-!
# The generated Rust program

What the templates of the Rust generator print for a file, as a syntax tree.  `RustPrint.lean` proves that the printed text has
the tokens of this tree.
-/

namespace RustText

open Utils Text RustAst
open Gen (PKind)
open GoText (FieldD MsgD FileD decimal)
open Package (EnumD qualify)

/-! ## Pieces -/

def var (n : Ident) : Expr := .path [n]
def vb : Expr := var go!"b"
def vself : Expr := var go!"self"
def sf (n : Ident) : Expr := .field vself n
def args1 (a : Expr) : Expr := .acons a .anil
def args2 (a b : Expr) : Expr := .acons a (.acons b .anil)
def args3 (a b c : Expr) : Expr := .acons a (.acons b (.acons c .anil))
def okOf (e : Expr) : Expr := .call (var go!"Ok") (args1 e)
def someOf (e : Expr) : Expr := .call (var go!"Some") (args1 e)
def errorPath (e : Ident) : Expr := .path [go!"DecodingError", e]
/-- `e.ok_or(DecodingError::X)?` -/
def okOr (e : Expr) (x : Ident) : Expr := .tr (.method e go!"ok_or" (args1 (errorPath x)))
def len (e : Expr) : Expr := .method e go!"len" .anil
/-- `b.m(args)?` -/
def bcall (m : Ident) (args : Expr) : Expr := .tr (.method vb m args)
/-- `T::decode(b)?` -/
def decodeOf (t : Ident) : Expr := .tr (.call (.path [t, go!"decode"]) (args1 vb))

def tname (n : Ident) : Ty := .path [n]
def tbytes : Ty := .app1 go!"Vec" (tname go!"u8")
def terror : Ty := .app1 go!"Box" (.dyn [go!"std", go!"error", go!"Error"])
/-- `&mut Cursor<&mut Vec<u8>>` -/
def tdecoder : Ty := .ref none true (.app1 go!"Cursor" (.ref none true tbytes))

def block (ss : List Stmt) : Stmt := ss.foldr .seq .skip

/-! ## Kinds -/

/-- The type of a scalar (structs.go 34-50). -/
def scalarTy : PKind → Ty
  | .bool => tname go!"bool"
  | .int32 | .sint32 | .sfixed32 => tname go!"i32"
  | .uint32 | .fixed32 => tname go!"u32"
  | .int64 | .sint64 | .sfixed64 => tname go!"i64"
  | .uint64 | .fixed64 => tname go!"u64"
  | .float => tname go!"f32"
  | .double => tname go!"f64"
  | .string => tname go!"String"
  | _ => tbytes

/-- The type of one element; `t` is the identifier of the message or enum type. -/
def elemTy (k : PKind) (t : Ident) : Ty :=
  match k with
  | .message => tname t
  | .enum => tname t
  | k => scalarTy k

/-- What stands after `encode_` and `decode_` (structs.go 52-88). -/
def suffix : PKind → Ident
  | .bool => go!"bool"
  | .int32 | .sint32 | .sfixed32 => go!"i32"
  | .uint32 | .fixed32 | .enum => go!"u32"
  | .int64 | .sint64 | .sfixed64 => go!"i64"
  | .uint64 | .fixed64 => go!"u64"
  | .float => go!"f32"
  | .double => go!"f64"
  | .string => go!"string"
  | _ => go!"bytes"

def encoder (k : PKind) : Ident := go!"encode_" ++ suffix k
def decoder (k : PKind) : Ident := go!"decode_" ++ suffix k

/-- `Kind::X` (structs.go 90-107, 225-237). -/
def kindOf (k : PKind) : Expr := .path [go!"Kind", match k with
  | .bool => go!"Bool"
  | .int32 | .sint32 | .sfixed32 => go!"I32"
  | .uint32 | .fixed32 | .enum => go!"U32"
  | .int64 | .sint64 | .sfixed64 => go!"I64"
  | .uint64 | .fixed64 => go!"U64"
  | .float => go!"F32"
  | .double => go!"F64"
  | .string => go!"String"
  | .bytes => go!"Bytes"
  | _ => go!"Any"]

/-! ## encode.templ -/

/-- structs.go 170-177: the argument for a singular field. -/
def encArg (n : Ident) (k : PKind) : Expr :=
  match k with
  | .enum => .as (sf n) go!"u32"
  | .string => .ref (sf n)
  | .bytes => .ref (sf n)
  | _ => sf n

/-- encode.templ 6: one call of the chain. -/
def encValue (n : Ident) (k : PKind) (e : Expr) : Expr := .tr (.method e (encoder k) (args1 (encArg n k)))

/-- encode.templ 21-37: one repeated field. -/
def encSlice (n : Ident) (k : PKind) : List Stmt :=
  [.expr (bcall go!"encode_array" (args2 (len (sf n)) (kindOf k))),
   .for1 go!"item" (.ref (sf n)) (block [match k with
     | .message => .expr (.tr (.method (var go!"item") go!"encode" (args1 vb)))
     | .string => .expr (bcall (encoder k) (args1 (.ref (var go!"item"))))
     | k => .expr (bcall (encoder k) (args1 (var go!"item")))])]

/-- encode.templ 45-71: one map field; the key is no message and no enum. -/
def encMap (n : Ident) (kk k : PKind) : List Stmt :=
  [.expr (bcall go!"encode_map" (args3 (len (sf n)) (kindOf kk) (kindOf k))),
   .for2 go!"k" go!"v" (.ref (sf n)) (block [
     (match kk with
       | .string => .expr (bcall (encoder kk) (args1 (.ref (var go!"k"))))
       | kk => .expr (bcall (encoder kk) (args1 (var go!"k")))),
     (match k with
       | .message => .expr (.tr (.method (var go!"v") go!"encode" (args1 vb)))
       | .enum => .expr (bcall go!"encode_u32" (args1 (.as (.deref (var go!"v")) go!"u32")))
       | k => .expr (bcall (encoder k) (args1 (.deref (var go!"v")))))])]

/-- encode.templ 72-74: one message field. -/
def encMessage (n : Ident) : List Stmt := [.expr (.tr (.method (sf n) go!"encode" (args1 vb)))]

/-- messages.templ 3 -/
def encodeSig : Sig :=
  { name := go!"encode", life := some go!"a", self := some go!"a",
    params := [(go!"b", .ref (some go!"a") true (.app1 go!"Cursor" tbytes))],
    ret := .app2 go!"Result" (.ref none true (.app1 go!"Cursor" tbytes)) terror }

/-! ## decode.templ -/

/-- decode.templ 4 -/
def decodeSig (name : Ident) (t : Ty) (sized : Bool) : Sig :=
  { name := name, params := [(go!"b", tdecoder)], ret := .app2 go!"Result" (.app1 go!"Option" t) terror, sized := sized }

/-- `if b.decode_none() { return Ok(None); }` -/
def noneCheck : Stmt := .if1 (.method vb go!"decode_none" .anil) (block [.ret (okOf (var go!"None"))])

/-- `if let Ok(error) = b.decode_error() { return Err(error); }` -/
def errorCheck : Stmt :=
  .ifLet go!"Ok" go!"error" (.method vb go!"decode_error" .anil) (block [.ret (.call (var go!"Err") (args1 (var go!"error")))])

/-- decode.templ 15-31: the function for a repeated field. -/
def sliceFn (n : Ident) (k : PKind) (t : Ident) : Stmt :=
  .func (decodeSig (n ++ go!"_decode") (.app1 go!"Vec" (elemTy k t)) false) (block
    [.let1 false (n ++ go!"_size") (bcall go!"decode_array" (args1 (kindOf k))),
     .let1 true go!"temp" (.call (.path [go!"Vec", go!"with_capacity"]) (args1 (var (n ++ go!"_size")))),
     .for1 go!"_" (.range (.num go!"0") (var (n ++ go!"_size"))) (block
       [.expr (.method (var go!"temp") go!"push" (args1 (match k with
         | .message => okOr (decodeOf t) go!"InvalidArray"
         | k => bcall (decoder k) .anil)))]),
     .tail (okOf (someOf (var go!"temp")))])

/-- decodeMap.templ 18-26: reading a key, which is no message and no enum. -/
def keyExpr (kk : PKind) : Expr := bcall (decoder kk) .anil

/-- decodeMap.templ 27-35: reading a value. -/
def valueExpr (k : PKind) (t : Ident) : Expr :=
  match k with
  | .message => okOr (decodeOf t) go!"InvalidMap"
  | .enum => okOr (.method (.call (.path [t, go!"try_from"]) (args1 (bcall (decoder k) .anil))) go!"ok" .anil) go!"InvalidMap"
  | k => bcall (decoder k) .anil

/-- decodeMap.templ: the function for a map field. -/
def mapFn (n : Ident) (kk k : PKind) (t : Ident) : Stmt :=
  .func (decodeSig (n ++ go!"_decode") (.app2 go!"HashMap" (scalarTy kk) (elemTy k t)) false) (block
    [noneCheck,
     .let1 false go!"size" (okOr (.method (.method vb go!"decode_map" (args2 (kindOf kk) (kindOf k))) go!"ok" .anil) go!"InvalidU32"),
     .let1 true go!"map" (.call (.path [go!"HashMap", go!"new"]) .anil),
     .for1 go!"_" (.range (.num go!"0") (var go!"size")) (block
       [.let1 false go!"k" (keyExpr kk), .let1 false go!"v" (valueExpr k t),
        .expr (.method (var go!"map") go!"insert" (args2 (var go!"k") (var go!"v")))]),
     .tail (okOf (someOf (var go!"map")))])

/-- decode.templ 39-46: the initialiser of a singular field. -/
def initValue (k : PKind) (t : Ident) : Expr :=
  match k with
  | .enum => okOr (.method (.call (.path [t, go!"try_from"]) (args1 (bcall go!"decode_u32" .anil))) go!"ok" .anil) go!"InvalidEnum"
  | k => bcall (decoder k) .anil

/-- `f_decode(b)?.ok_or(DecodingError::X)?` -/
def initCall (n x : Ident) : Expr := okOr (.tr (.call (var (n ++ go!"_decode")) (args1 vb))) x

/-- decode.templ 55 -/
def initMessage (t : Ident) : Expr := okOr (decodeOf t) go!"InvalidStruct"

def fieldsOf (l : List (Ident × Expr)) : Expr := l.foldr (fun p e => .fcons p.1 p.2 e) .fnil

/-! ## From descriptors -/

/-- The Rust identifier of a type. -/
def camel (n : Bytes) : Ident := ofBytes (camelCase n)

/-- The Rust identifier of a field. -/
def snake (n : Bytes) : Ident := ofBytes (snakeBytes n)

/-- `findValue` -/
def fieldTy (f : FieldD) : Ty :=
  match f.shape with
  | .one _ => elemTy f.kind (camel f.type)
  | .many => .app1 go!"Vec" (elemTy f.kind (camel f.type))
  | .map kk => .app2 go!"HashMap" (scalarTy kk) (elemTy f.kind (camel f.type))

/-- encode.templ 44-75 -/
def encMessageField (f : FieldD) : List Stmt :=
  match f.shape with
  | .map kk => encMap (snake f.name) kk f.kind
  | _ => encMessage (snake f.name)

/-- encode.templ 1-17 -/
def encodeImpl (full : Bytes) (fs : List FieldD) : Item :=
  let values := fs.filter FieldD.isValue
  let chain := values.foldl (fun e f => encValue (snake f.name) f.kind e) vb
  .impl go!"Encode" (camel full) encodeSig (block ((if values = [] then [] else [.expr chain]) ++
    (fs.filter FieldD.isSlice).flatMap (fun f => encSlice (snake f.name) f.kind) ++
    (fs.filter FieldD.isMessage).flatMap encMessageField ++ [.tail (okOf vb)]))

/-- decode.templ 32-36 -/
def mapFns (f : FieldD) : List Stmt :=
  match f.shape with
  | .map kk => [mapFn (snake f.name) kk f.kind (camel f.type)]
  | _ => []

/-- decode.templ 50-56 -/
def initMessageField (f : FieldD) : Ident × Expr :=
  match f.shape with
  | .map _ => (snake f.name, initCall (snake f.name) go!"InvalidMap")
  | _ => (snake f.name, initMessage (camel f.type))

/-- decode.templ -/
def decodeImpl (full : Bytes) (fs : List FieldD) : Item :=
  .impl go!"Decode" (camel full) (decodeSig go!"decode" (tname (camel full)) false) (block ([noneCheck, errorCheck] ++
    (fs.filter FieldD.isSlice).map (fun f => sliceFn (snake f.name) f.kind (camel f.type)) ++
    (fs.filter FieldD.isMessage).flatMap mapFns ++
    [.tail (okOf (someOf (.lit (camel full) (fieldsOf (
      (fs.filter FieldD.isValue).map (fun f => (snake f.name, initValue f.kind (camel f.type))) ++
      (fs.filter FieldD.isSlice).map (fun f => (snake f.name, initCall (snake f.name) go!"InvalidArray")) ++
      (fs.filter FieldD.isMessage).map initMessageField)))))]))

/-- enums.templ 8-18 -/
def enumItem (scope : Bytes) (e : EnumD) : Item :=
  .enum [(go!"derive", [go!"Debug", go!"Eq", go!"PartialEq", go!"TryFromPrimitive", go!"Copy", go!"Clone"]), (go!"repr", [go!"u32"])]
    (camel (qualify scope e.name)) (e.values.mapIdx fun i v => (ofBytes v, ofBytes (decimal i)))

/-- structs.templ 13-20: the flag `privacy`. -/
def visOf (privacy : Bytes) : Vis :=
  if privacy = str!"private" then .priv else if privacy = str!"public" then .pub else .crate

mutual
/-- structs.templ: the messages inside, the struct and its implementations. -/
def structItems (privacy scope : Bytes) : MsgD → List Item
  | .mk name _ fs _ ms =>
    structItemsAll privacy (qualify scope name) ms ++
    [.struct (camel (qualify scope name)) (fs.map fun f => (visOf privacy, snake f.name, fieldTy f)), encodeImpl (qualify scope name) fs,
     decodeImpl (qualify scope name) fs]
/-- structs.templ 2-7; entry messages of maps are skipped. -/
def structItemsAll (privacy scope : Bytes) : List MsgD → List Item
  | [] => []
  | .mk name e fs es ms :: rest => (if e then [] else structItems privacy scope (.mk name e fs es ms)) ++ structItemsAll privacy scope rest
end

/-- messages.templ 10-15: the enums of a top-level message, then its structs. -/
def messageItems (privacy scope : Bytes) : MsgD → List Item
  | .mk name e fs es ms => es.map (enumItem (qualify scope name)) ++ structItems privacy scope (.mk name e fs es ms)

/-- imports.templ -/
def importItems (d : Package.Rust.Dependencies) : List Item :=
  [.use1 [go!"std", go!"io", go!"Cursor"], .use2 [go!"polyglot_rs"] [go!"DecodingError", go!"Encoder", go!"Decoder", go!"Kind"]] ++
  (if d.Enums then [.use1 [go!"num_enum", go!"TryFromPrimitive"], .use1 [go!"std", go!"convert", go!"TryFrom"]] else []) ++
  (if d.Maps then [.use1 [go!"std", go!"collections", go!"HashMap"]] else [])

/-- messages.templ 2-8 -/
def traitItems : List Item := [.trait go!"Encode" encodeSig, .trait go!"Decode" (decodeSig go!"decode" (tname go!"Self") true)]

/-- base.templ: the file. -/
def program (privacy : Bytes) (d : Package.Rust.Dependencies) (f : FileD) : List Item :=
  importItems d ++ f.enums.map (enumItem f.package) ++ traitItems ++ f.messages.flatMap (messageItems privacy f.package)

end RustText
