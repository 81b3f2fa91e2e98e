import Verif.Text.TsAst
import Verif.Text.TsDescr
import Verif.Text.GoProgram

/-!
# The generated TypeScript program

What the templates of the TypeScript generator print for a file, as a syntax tree.  `TsPrint.lean` proves that the printed text has
the tokens of this tree.
-/

namespace TsText

open Utils Text TsAst
open Gen (PKind)
open GoText (FieldD MsgD FileD decimal)
open Package (EnumD qualify)

/-! ## Pieces -/

def args0 : Expr := .anil
def args1 (a : Expr) : Expr := .acons a .anil
def args2 (a b : Expr) : Expr := .acons a (.acons b .anil)
def args3 (a b c : Expr) : Expr := .acons a (.acons b (.acons c .anil))
def args4 (a b c d : Expr) : Expr := .acons a (.acons b (.acons c (.acons d .anil)))
def encoded : Expr := .var go!"encoded"
def decoded : Expr := .var go!"decoded"
def this : Expr := .var go!"this"
/-- `this._n` -/
def priv (n : Ident) : Expr := .field this (go!"_" ++ n)
def setEncoded (e : Expr) : Stmt := .assign encoded e false
def setDecoded (e : Expr) : Stmt := .assign decoded e false
/-- `e.encode(encoded)` -/
def encodeOf (e : Expr) : Expr := .call (.field e go!"encode") (args1 encoded)
/-- `t.decode(decoded)` -/
def decodeOf (t : Ident) : Expr := .call (.field (.var t) go!"decode") (args1 decoded)
/-- `f(args)` for a function of the package -/
def fn (f : Ident) (args : Expr) : Expr := .call (.var f) args
def bufOf (n : Ident) : Expr := .field (.var n) go!"buf"
def valueOf (n : Ident) : Expr := .field (.var n) go!"value"
def temp (n : Ident) : Ident := n ++ go!"Temp"
def tnumber : Ty := .name go!"number"
def tbuf : Ty := .name go!"Uint8Array"

def block (ss : List Stmt) : Stmt := ss.foldr .seq .skip

/-! ## Kinds -/

/-- The type of a scalar (structs.go 34-50). -/
def scalarTy : PKind → Ty
  | .bool => .name go!"boolean"
  | .string => .name go!"string"
  | .bytes => tbuf
  | _ => tnumber

/-- The type of one element; `t` is the identifier of the message or enum type. -/
def elemTy (k : PKind) (t : Ident) : Ty :=
  match k with
  | .message => .name t
  | .enum => .name t
  | k => scalarTy k

/-- What stands after `encode` and `decode` (structs.go 52-88). -/
def suffix : PKind → Ident
  | .bool => go!"Boolean"
  | .int32 | .sint32 | .sfixed32 => go!"Int32"
  | .uint32 | .fixed32 | .enum => go!"Uint32"
  | .int64 | .sint64 | .sfixed64 => go!"Int64"
  | .uint64 | .fixed64 => go!"Uint64"
  | .float => go!"Float32"
  | .double => go!"Float64"
  | .string => go!"String"
  | _ => go!"Bytes"

def encoder (k : PKind) : Ident := go!"encode" ++ suffix k
def decoder (k : PKind) : Ident := go!"decode" ++ suffix k

/-- `Kind.X` (structs.go 90-107, 221-235). -/
def kindOf (k : PKind) : Expr := .field (.var go!"Kind") (match k with
  | .bool => go!"Bool"
  | .int32 | .sint32 | .sfixed32 => go!"Int32"
  | .uint32 | .fixed32 | .enum => go!"U32"
  | .int64 | .sint64 | .sfixed64 => go!"I64"
  | .uint64 | .fixed64 => go!"U64"
  | .float => go!"F32"
  | .double => go!"F64"
  | .string => go!"String"
  | .bytes => go!"Bytes"
  | _ => go!"Any")

/-! ## encode.templ -/

/-- encode.templ 8, structs.go 170-176: one singular field. -/
def encValue (n : Ident) (k : PKind) : Stmt :=
  setEncoded (fn (encoder k) (args2 encoded (match k with
    | .enum => .as (.field this n) tnumber
    | _ => .field this n)))

/-- encode.templ 23-39: one repeated field. -/
def encSlice (n : Ident) (k : PKind) : List Stmt :=
  match k with
  | .message =>
    [setEncoded (fn go!"encodeArray" (args3 encoded (.field (priv n) go!"length") (kindOf .message))),
     .forEach (priv n) [go!"field"] (block [setEncoded (encodeOf (.var go!"field"))])]
  | k =>
    [setEncoded (fn go!"encodeArray" (args2 (.field (priv n) go!"length") (kindOf k))),
     .forEach (priv n) [go!"field"] (block [setEncoded (fn (encoder k) (args2 encoded (.var go!"field")))])]

/-- encode.templ 45-73: one map field; the key is no message and no enum. -/
def encMap (n : Ident) (kk k : PKind) : List Stmt :=
  [setEncoded (fn go!"encodeMap" (args4 encoded (.field (priv n) go!"size") (kindOf kk) (kindOf k))),
   .forEach (priv n) [go!"v", go!"k"] (block [
     setEncoded (fn (encoder kk) (args2 encoded (.var go!"k"))),
     setEncoded (match k with
       | .message => encodeOf (.var go!"v")
       | .enum => fn go!"encodeUint32" (args2 encoded (.as (.var go!"v") tnumber))
       | k => fn (encoder k) (args2 encoded (.var go!"v")))])]

/-- encode.templ 74-76: one message field. -/
def encMessage (n : Ident) : List Stmt := [.assign encoded (encodeOf (priv n)) true]

/-! ## decode.templ -/

/-- decode.templ 16-26: reading one element into `n`, which is then `n.value` with the rest of the buffer in `n.buf`; `ty` is the type
that an enum value is given, `raw` the name of its number, `buf` where the rest of the buffer is then taken from. -/
def readInto (n raw : Ident) (buf : Expr) (k : PKind) (t : Ident) (ty : Ty) : List Stmt :=
  match k with
  | .enum => [.let1 raw (fn go!"decodeUint32" (args1 decoded)), .const1 n (.obj1 go!"value" (.as (.var raw) ty)), setDecoded buf]
  | .message => [.let1 n (decodeOf t), setDecoded (bufOf n)]
  | k => [.let1 n (fn (decoder k) (args1 decoded)), setDecoded (bufOf n)]

/-- decode.templ 7-29: one repeated field.  The rest of the buffer after an enum value is taken from `element.bufEnum`. -/
def decSlice (n : Ident) (k : PKind) (t : Ident) : List Stmt :=
  [.let1 n (fn go!"decodeArray" (args1 decoded)), setDecoded (bufOf n),
   .constT (temp n) (.obj1 go!"value" (.arr (elemTy k t))) (.obj1 go!"value" .empty),
   .for1 go!"i" (.field (.var n) go!"size") (block (
     readInto go!"element" go!"elementEnum" (.field (.var go!"element") go!"bufEnum") k t (.arr (elemTy k t)) ++
     [.expr (.call (.field (valueOf (temp n)) go!"push") (args1 (valueOf go!"element")))]))]

/-- decodeMap.templ: one map field; the key is no message and no enum. -/
def decMap (n : Ident) (kk k : PKind) (t : Ident) : List Stmt :=
  [.let1 n (fn go!"decodeMap" (args1 decoded)), setDecoded (bufOf n),
   .constT (temp n) (.obj1 go!"value" (.map (scalarTy kk) (elemTy k t))) (.obj1 go!"value" (.new go!"Map" false args0)),
   .for1 go!"i" (.field (.var n) go!"size") (block (
     [.let1 go!"key" (fn (decoder kk) (args1 decoded)), setDecoded (bufOf go!"key")] ++
     readInto go!"value" go!"valueEnum" (bufOf go!"valueEnum") k t (elemTy k t) ++
     [.expr (.call (.field (valueOf n) go!"set") (args2 (.var go!"key") (.var go!"value")))]))]

/-- decode.templ 38-39: one message field. -/
def decMessage (n t : Ident) : List Stmt := [.let1 (temp n) (decodeOf t), setDecoded (bufOf (temp n))]

/-- decode.templ 43-54: one singular field that is no message. -/
def decOther (n : Ident) (k : PKind) (t : Ident) : List Stmt :=
  readInto (temp n) (n ++ go!"U32") (bufOf (n ++ go!"U32")) k t (elemTy k t)

def argsOf (l : List Expr) : Expr := l.foldr .acons .anil

/-! ## From descriptors -/

/-- The identifier of a type. -/
def camel (n : Bytes) : Ident := ofBytes (camelCase n)

/-- The identifier of a field. -/
def lower (n : Bytes) : Ident := ofBytes (lowercaseCamelCase n)

/-- `findValue` -/
def fieldTy (f : FieldD) : Ty :=
  match f.shape with
  | .one _ => elemTy f.kind (camel f.type)
  | .many => .arr (elemTy f.kind (camel f.type))
  | .map kk => .map (scalarTy kk) (elemTy f.kind (camel f.type))

/-- encode.templ 43-77 -/
def encMessageField (f : FieldD) : List Stmt :=
  match f.shape with
  | .map kk => encMap (lower f.name) kk f.kind
  | _ => encMessage (lower f.name)

/-- encode.templ 1-20 -/
def encodeMethod (fs : List FieldD) : Member :=
  .method false go!"encode" go!"buf" tbuf tbuf (block ([.let1 go!"encoded" (.var go!"buf")] ++
    (fs.filter FieldD.isValue).map (fun f => encValue (lower f.name) f.kind) ++
    (fs.filter FieldD.isSlice).flatMap (fun f => encSlice (lower f.name) f.kind) ++
    (fs.filter FieldD.isMessage).flatMap encMessageField ++ [.ret encoded]))

/-- decode.templ 32-41 -/
def decMessageField (f : FieldD) : List Stmt :=
  match f.shape with
  | .map kk => decMap (lower f.name) kk f.kind (camel f.type)
  | _ => decMessage (lower f.name) (camel f.type)

/-- decode.templ 58-66 -/
def argOf (f : FieldD) : Expr := valueOf (temp (lower f.name))

/-- decode.templ -/
def decodeMethod (full : Bytes) (fs : List FieldD) : Member :=
  .method true go!"decode" go!"buf" tbuf (.obj2 go!"buf" tbuf go!"value" (.name (camel full))) (block ([.let1 go!"decoded" (.var go!"buf")] ++
    (fs.filter FieldD.isSlice).flatMap (fun f => decSlice (lower f.name) f.kind (camel f.type)) ++
    (fs.filter FieldD.isMessage).flatMap decMessageField ++
    (fs.filter FieldD.isValue).flatMap (fun f => decOther (lower f.name) f.kind (camel f.type)) ++
    [.ret (.obj2 go!"buf" decoded go!"value" (.new (camel full) true (argsOf (
      (fs.filter FieldD.isValue).map argOf ++ (fs.filter FieldD.isSlice).map argOf ++ (fs.filter FieldD.isMessage).map argOf))))]))

/-- structs.templ 14 -/
def setField (n : Ident) : Stmt := .assign (priv n) (.var n) false

/-- structs.templ 21-31: the property of a field with its accessors. -/
def property (n : Ident) (t : Ty) : List Member :=
  [.prop (go!"_" ++ n) t, .getter n t (block [.ret (priv n)]), .setter n n t (block [setField n])]

/-- structs.templ 8-38 -/
def classItem (full : Bytes) (fs : List FieldD) : Item :=
  .cls (camel full) ([.ctor (fs.map fun f => (lower f.name, fieldTy f)) (block (fs.map fun f => setField (lower f.name)))] ++
    fs.flatMap (fun f => property (lower f.name) (fieldTy f)) ++ [encodeMethod fs, decodeMethod full fs])

/-- enums.templ 8-15 -/
def enumItem (scope : Bytes) (e : EnumD) : Item :=
  .enum (camel (qualify scope e.name)) (e.values.mapIdx fun i v => (ofBytes v, ofBytes (decimal i)))

mutual
/-- structs.templ: the messages inside, then the class. -/
def structItems (scope : Bytes) : MsgD → List Item
  | .mk name _ fs _ ms => structItemsAll (qualify scope name) ms ++ [classItem (qualify scope name) fs]
/-- structs.templ 2-7; entry messages of maps are skipped. -/
def structItemsAll (scope : Bytes) : List MsgD → List Item
  | [] => []
  | .mk name e fs es ms :: rest => (if e then [] else structItems scope (.mk name e fs es ms)) ++ structItemsAll scope rest
end

/-- messages.templ: the enums of a top-level message, then its classes. -/
def messageItems (scope : Bytes) : MsgD → List Item
  | .mk name e fs es ms => es.map (enumItem (qualify scope name)) ++ structItems scope (.mk name e fs es ms)

/-- head.templ and body.templ: the file. -/
def program (deps : List Bytes) (f : FileD) : List Item :=
  .import1 (deps.map ofBytes) go!"polyglot" :: f.enums.map (enumItem f.package) ++ f.messages.flatMap (messageItems f.package)

end TsText
