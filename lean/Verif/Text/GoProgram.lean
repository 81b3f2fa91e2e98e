import Verif.Text.Ast
import Verif.Text.Descr

/-!
# The generated Go program

What the templates of the Go generators print for a file, as a syntax tree.  `GoPrint.lean` proves that the printed text has
the tokens of this tree.
-/

namespace GoText

open Utils Text GoAst
open Gen (PKind)
open Package (EnumD qualify)

/-! ## Pieces -/

def vx : Expr := .var go!"x"
def vb : Expr := .var go!"b"
def vd : Expr := .var go!"d"
def vv : Expr := .var go!"v"
def vk : Expr := .var go!"k"
def vi : Expr := .var go!"i"
def verr : Expr := .var go!"err"
def vnil : Expr := .var go!"nil"
def vsize : Expr := .var go!"sliceSize"
def polyglot (n : Ident) : Expr := .sel (.var go!"polyglot") n
def uint32 (e : Expr) : Expr := .call1 (.var go!"uint32") e
def len (e : Expr) : Expr := .call1 (.var go!"len") e
def tuint32 : Ty := .name go!"uint32"
def terror : Ty := .name go!"error"
/-- `*polyglot.Decoder`, in v2 `*polyglot.BufferDecoder` -/
def tdecoder [Lib] : Ty := .ptr (.qual go!"polyglot" (Lib.pick go!"Decoder" go!"BufferDecoder"))
/-- The variable of errors.templ. -/
def errNil [Lib] : Ident := Lib.pick go!"NilDecode" go!"ErrDecodeNil"

/-- `polyglot.Encoder(b)` -/
def encoder : Expr := .call1 (polyglot go!"Encoder") vb

/-- `x.F` -/
def xf (f : Ident) : Expr := .sel vx f

def block : List Stmt → Stmt := List.foldr .seq .skip

/-- `if err != nil { return err }` -/
def check : Stmt := .if1 (.ne verr vnil) (block [.ret1 verr])

/-- The type of a scalar field (structs.go 33-49). -/
def scalarTy : PKind → Ty
  | .bool => .name go!"bool"
  | .int32 => .name go!"int32"
  | .sint32 => .name go!"int32"
  | .uint32 => .name go!"uint32"
  | .int64 => .name go!"int64"
  | .sint64 => .name go!"int64"
  | .uint64 => .name go!"uint64"
  | .sfixed32 => .name go!"int32"
  | .sfixed64 => .name go!"int64"
  | .fixed32 => .name go!"uint32"
  | .fixed64 => .name go!"uint64"
  | .float => .name go!"float32"
  | .double => .name go!"float64"
  | .string => .name go!"string"
  | .bytes => .slice (.name go!"byte")
  | _ => .name []

/-- The method for a scalar, of the encoder and of the decoder (structs.go 51-87). -/
def method : PKind → Ident
  | .bool => go!"Bool"
  | .int32 => go!"Int32"
  | .sint32 => go!"Int32"
  | .uint32 => go!"Uint32"
  | .int64 => go!"Int64"
  | .sint64 => go!"Int64"
  | .uint64 => go!"Uint64"
  | .sfixed32 => go!"Int32"
  | .sfixed64 => go!"Int64"
  | .fixed32 => go!"Uint32"
  | .fixed64 => go!"Uint64"
  | .string => go!"String"
  | .float => go!"Float32"
  | .double => go!"Float64"
  | .bytes => go!"Bytes"
  | .enum => go!"Uint32"
  | _ => []

/-- The `polyglot.Kind` of a field kind (structs.go 89-106, 224-236). -/
def kindConst : PKind → Expr
  | .bool => polyglot go!"BoolKind"
  | .int32 => polyglot go!"Int32Kind"
  | .sint32 => polyglot go!"Int32Kind"
  | .uint32 => polyglot go!"Uint32Kind"
  | .int64 => polyglot go!"Int64Kind"
  | .sint64 => polyglot go!"Int64Kind"
  | .uint64 => polyglot go!"Uint64Kind"
  | .sfixed32 => polyglot go!"Int32Kind"
  | .sfixed64 => polyglot go!"Int64Kind"
  | .fixed32 => polyglot go!"Uint32Kind"
  | .fixed64 => polyglot go!"Uint64Kind"
  | .string => polyglot go!"StringKind"
  | .float => polyglot go!"Float32Kind"
  | .double => polyglot go!"Float64Kind"
  | .bytes => polyglot go!"BytesKind"
  | .enum => polyglot go!"Uint32Kind"
  | _ => polyglot go!"AnyKind"

/-- The type of a value of some kind; `t` is the identifier of the message or enum type. -/
def elemTy (k : PKind) (t : Ident) : Ty :=
  match k with
  | .enum => .name t
  | .message => .ptr (.name t)
  | k => scalarTy k

/-! ## Encoders -/

/-- `e.Method(x.F)`, for an enum `e.Method(uint32(x.F))`: the next call of the chain (structs.go 170-174). -/
def encValue (f : Ident) (k : PKind) (e : Expr) : Expr :=
  .call1 (.sel e (method k)) (if k = .enum then uint32 (xf f) else xf f)

/-- encode.templ 25-34: a repeated field. -/
def encSlice (f : Ident) (k : PKind) : List Stmt :=
  [.expr (.call2 (.sel encoder go!"Slice") (uint32 (len (xf f))) (kindConst k)),
   .range go!"_" go!"v" (xf f) (block [.expr (if k = .message then .call1 (.sel vv go!"Encode") vb else .call1 (.sel encoder (method k)) vv)])]

/-- encode.templ 39-41: a message or map field. -/
def encMessage (f : Ident) : Stmt := .expr (.call1 (.sel (xf f) go!"Encode") vb)

/-- encode.templ 1-19; `tight` if the chain of values is all there is. -/
def encodeFunc (t : Ident) (body : List Stmt) (tight : Bool) : Decl :=
  .func (some (go!"x", .ptr (.name t))) go!"Encode" [(go!"b", .ptr (.qual go!"polyglot" go!"Buffer"))] none
    (block [.ite (.eq vx vnil) (block [.expr (.call0 (.sel encoder go!"Nil"))]) (block body) tight])

/-- encodeMap.templ: one key or value of the loop. -/
def encEntry (e : Expr) (k : PKind) : Stmt :=
  .expr (if k = .message then .call1 (.sel e go!"Encode") vb
    else .call1 (.sel encoder (method k)) (if k = .enum then uint32 e else e))

/-- encodeMap.templ; `t` is the identifier of the map type. -/
def encodeMapFunc (t : Ident) (kk k : PKind) : Decl :=
  .func (some (go!"x", .name t)) go!"Encode" [(go!"b", .ptr (.qual go!"polyglot" go!"Buffer"))] none
    (block [.ite (.eq vx vnil)
      (block [.expr (.call3 (.sel encoder go!"Map") (.num go!"0") (kindConst kk) (kindConst k))])
      (block [.expr (.call3 (.sel encoder go!"Map") (uint32 (len vx)) (kindConst kk) (kindConst k)),
        .range go!"k" go!"v" vx (block [encEntry vk kk, encEntry vv k])]) false])

/-! ## Decoders -/

/-- decode.templ 22-37: a scalar or enum field; `t` is the identifier of the enum type. -/
def decValue [Lib] (f : Ident) (k : PKind) (t : Ident) : List Stmt :=
  (match k with
   | .bytes => [.assign2 (xf f) verr (.call1 (.sel vd (method k)) (Lib.pick vnil (xf f)))]
   | .enum => [.var (f ++ go!"Temp") tuint32, .assign2 (.var (f ++ go!"Temp")) verr (.call0 (.sel vd (method k))),
      .assign (xf f) (.call1 (.var t) (.var (f ++ go!"Temp")))]
   | k => [.assign2 (xf f) verr (.call0 (.sel vd (method k)))]) ++ [check]

/-- decode.templ 42-65: a repeated field of element type `et`; `t` is the identifier of the message type. -/
def decSlice (f : Ident) (k : PKind) (et : Ty) (t : Ident) : List Stmt :=
  [.assign2 vsize verr (.call1 (.sel vd go!"Slice") (kindConst k)), check,
   .if1 (.ne (uint32 (len (xf f))) vsize) (block [.assign (xf f) (.make (.slice et) vsize)]),
   .for3 go!"i" (uint32 (.num go!"0")) (.lt vi vsize) (block (
     (if k = .message then
       [.if1 (.eq (.index (xf f) vi) vnil) (block [.assign (.index (xf f) vi) (.call0 (.var (go!"New" ++ t)))]),
        .assign verr (.call1 (.sel (.index (xf f) vi) go!"decode") vd)]
      else [.assign2 (.index (xf f) vi) verr (.call0 (.sel vd (method k)))]) ++ [check]))]

/-- decode.templ 67-80: a map field; `t` is the identifier of the map type. -/
def decMap (f : Ident) (kk k : PKind) (t : Ident) : Stmt :=
  .if1 (.not (.call0 (.sel vd go!"Nil"))) (block
    [.define2 (f ++ go!"Size") go!"err" (.call2 (.sel vd go!"Map") (kindConst kk) (kindConst k)), check,
     .assign (xf f) (.call1 (.var (go!"New" ++ t)) (.var (f ++ go!"Size"))),
     .assign verr (.call2 (.sel (xf f) go!"decode") vd (.var (f ++ go!"Size"))), check])

/-- decode.templ 83-91 (v2: 81-89): a message field; `t` is the identifier of the message type. -/
def decMessage [Lib] (f t : Ident) : List Stmt := Lib.pick
  [.if1 (.eq (xf f) vnil) (block [.assign (xf f) (.call0 (.var (go!"New" ++ t)))]), .assign verr (.call1 (.sel (xf f) go!"decode") vd), check]
  [.if1 (.not (.call0 (.sel vd go!"Nil"))) (block
    [.assign (xf f) (.call0 (.var (go!"New" ++ t))), .assign verr (.call1 (.sel (xf f) go!"decode") vd), check])]

/-- decode.templ 10-93: `var err error` if `hasErr`, `var sliceSize uint32` if `hasSlices`. -/
def decodeFunc [Lib] (t : Ident) (hasErr hasSlices : Bool) (values slices messages : List Stmt) : Decl :=
  .func (some (go!"x", .ptr (.name t))) go!"decode" [(go!"d", tdecoder)] (some terror) (block (
    [.if1 (.call0 (.sel vd go!"Nil")) (block [.ret1 vnil])] ++ (if hasErr then [.var go!"err" terror] else []) ++ values ++
    (if hasSlices then [.var go!"sliceSize" tuint32] else []) ++ slices ++ messages ++ [.ret1 vnil]))

/-- decodeMap.templ: the statements that read a key or value into `e`. -/
def decEntry (n : Ident) (k : PKind) (t : Ident) (temp : Ident) : List Stmt :=
  match k with
  | .message => [.assign (.var n) (.call0 (.var (go!"New" ++ t))), .assign verr (.call1 (.sel (.var n) go!"decode") vd)]
  | .enum => [.assign2 (.var temp) verr (.call0 (.sel vd (method k))), .assign (.var n) (.call1 (.var t) (.var temp))]
  | k => [.assign2 (.var n) verr (.call0 (.sel vd (method k)))]

/-- decodeMap.templ; `m` is the identifier of the map type, `t` of the type of the values. -/
def decodeMapFunc [Lib] (m : Ident) (kk k : PKind) (t : Ident) : Decl :=
  .func (some (go!"x", .name m)) go!"decode" [(go!"d", tdecoder), (go!"size", tuint32)] (some terror) (block (
    [.if1 (.eq (.var go!"size") (.num go!"0")) (block [.ret1 vnil]), .var go!"k" (scalarTy kk), .var go!"v" (elemTy k t)] ++
    (if k = .enum then [.var go!"ValueTemp" tuint32] else []) ++
    [.var go!"err" terror,
     .for3 go!"i" (uint32 (.num go!"0")) (.lt vi (.var go!"size")) (block (
       decEntry go!"k" kk [] [] ++ [check] ++ decEntry go!"v" k t go!"ValueTemp" ++ [check, .assign (.index vx vk) vv])),
     .ret1 vnil]))

/-- decode.templ 1-10 (v2: 1-8) -/
def decodeApi [Lib] (t : Ident) : Decl :=
  .func (some (go!"x", .ptr (.name t))) go!"Decode" [(go!"b", .slice (.name go!"byte"))] (some terror) (block
    (.if1 (.eq vx vnil) (block [.ret1 (.var errNil)]) :: Lib.pick
      [.define go!"d" (.call1 (polyglot go!"GetDecoder") vb), .defer (.call0 (.sel vd go!"Return")), .ret1 (.call1 (.sel vx go!"decode") vd)]
      [.ret1 (.call1 (.sel vx go!"decode") (.call1 (polyglot go!"Decoder") vb))]))

/-! ## Declarations -/

/-- structs.templ 14-17: a map type and its constructor. -/
def mapDecls (t : Ident) (kt vt : Ty) : List Decl :=
  [.type t (.map kt vt),
   .func none (go!"New" ++ t) [(go!"size", tuint32)] (some (.map kt vt)) (block [.ret1 (.make (.map kt vt) (.var go!"size"))])]

/-- structs.templ 39-50 (v2: 40-44); `fs` are the elements of the struct. -/
def newFunc (t : Ident) (fs : List (Ident × Ident)) : Decl := .func none (go!"New" ++ t) [] (some (.ptr (.name t))) (block [.ret1 (.new t fs)])

/-- structs.templ 46-50 -/
def errorFunc (t : Ident) : Decl :=
  .func (some (go!"x", .ptr (.name t))) go!"Error" [(go!"b", .ptr (.qual go!"polyglot" go!"Buffer")), (go!"err", terror)] none
    (block [.expr (.call1 (.sel encoder go!"Error") verr)])

/-- errors.templ -/
def errorsDecl [Lib] : Decl :=
  .vars [(errNil, .call1 (.sel (.var go!"errors") go!"New") (.str go!"cannot decode into a nil root struct"))]

/-! ## From descriptors -/

/-- The Go identifier of a proto name. -/
def camel (n : Bytes) : Ident := ofBytes (camelCase n)

/-- The identifier of the type of a map field. -/
def mapName (owner : Bytes) (f : FieldD) : Ident := camel (qualify owner f.name) ++ go!"Map"

/-- The identifier that a repeated enum field uses for its type (structs.go 117: `CamelCase` of `[]` and the name). -/
def repeatedEnum (type : Bytes) : Ident := ofBytes ((camelCase (Slice ++ type)).drop 2)

/-- The element type of a repeated field. -/
def manyTy (k : PKind) (type : Bytes) : Ty :=
  match k with
  | .enum => .name (repeatedEnum type)
  | k => elemTy k (camel type)

/-- `FindValue` -/
def fieldTy (owner : Bytes) (f : FieldD) : Ty :=
  match f.shape with
  | .one _ => elemTy f.kind (camel f.type)
  | .many => .slice (manyTy f.kind f.type)
  | .map _ => .name (mapName owner f)

def FieldD.isValue (f : FieldD) : Bool :=
  match f.shape with
  | .one _ => f.kind ≠ .message
  | _ => false

def FieldD.isSlice (f : FieldD) : Bool :=
  match f.shape with
  | .many => true
  | _ => false

def FieldD.isMessage (f : FieldD) : Bool :=
  match f.shape with
  | .one _ => f.kind = .message
  | .map _ => true
  | _ => false

/-- The `Encode` of a message with full name `full`. -/
def encodeDecl (full : Bytes) (fs : List FieldD) : Decl :=
  let values := fs.filter FieldD.isValue
  let chain := values.foldl (fun e f => encValue (camel f.name) f.kind e) encoder
  let slices := (fs.filter FieldD.isSlice).flatMap fun f => encSlice (camel f.name) f.kind
  let messages := (fs.filter FieldD.isMessage).map fun f => encMessage (camel f.name)
  encodeFunc (camel full) ((if values = [] then [] else [.expr chain]) ++ slices ++ messages)
    (!values.isEmpty && (fs.filter FieldD.isSlice).isEmpty && (fs.filter FieldD.isMessage).isEmpty)

/-- structs.templ 42-47 (v1): the elements of a new struct, one for every message field that is not repeated. -/
def newElements [Lib] (fs : List FieldD) : List (Ident × Ident) := Lib.pick
  ((fs.filter fun f => f.Kind = .message ∧ f.IsRepeated = false).map fun f => (camel f.name, go!"New" ++ camel f.type))
  []

/-- decode.templ 68-93 (v2: 66-91): one message or map field. -/
def decMessageField [Lib] (owner : Bytes) (f : FieldD) : List Stmt :=
  match f.shape with
  | .map kk => [decMap (camel f.name) kk f.kind (mapName owner f)]
  | _ => decMessage (camel f.name) (camel f.type)

/-- The `decode` of a message with full name `full`. -/
def decodeDecl [Lib] (full : Bytes) (fs : List FieldD) : Decl :=
  decodeFunc (camel full) (!fs.isEmpty) (fs.any FieldD.isSlice)
    ((fs.filter FieldD.isValue).flatMap fun f => decValue (camel f.name) f.kind (camel f.type))
    ((fs.filter FieldD.isSlice).flatMap fun f => decSlice (camel f.name) f.kind (manyTy f.kind f.type) (camel f.type))
    ((fs.filter FieldD.isMessage).flatMap (decMessageField full))

/-- structs.templ 10-22: the declarations for a map field. -/
def mapFieldDecls [Lib] (owner : Bytes) (f : FieldD) : List Decl :=
  match f.shape with
  | .map kk => mapDecls (mapName owner f) (scalarTy kk) (elemTy f.kind (camel f.type)) ++
      [encodeMapFunc (mapName owner f) kk f.kind, decodeMapFunc (mapName owner f) kk f.kind (camel f.type)]
  | _ => []

/-- enums.templ 8-18 -/
def enumDecls (scope : Bytes) (e : EnumD) : List Decl :=
  [.type (camel (qualify scope e.name)) tuint32,
   .consts (e.values.mapIdx fun i v => (camel (qualify scope v), .call1 (.var (camel (qualify scope e.name))) (.num (ofBytes (decimal i)))))]

mutual
/-- structs.templ 1-37: the messages inside, the maps, the struct and its methods. -/
def structDecls [Lib] (scope : Bytes) : MsgD → List Decl
  | .mk name _ fs _ ms =>
    structDeclsAll (qualify scope name) ms ++ fs.flatMap (mapFieldDecls (qualify scope name)) ++
    [.struct (camel (qualify scope name)) (fs.map fun f => (camel f.name, fieldTy (qualify scope name) f)),
     newFunc (camel (qualify scope name)) (newElements fs), errorFunc (camel (qualify scope name)), encodeDecl (qualify scope name) fs,
     decodeApi (camel (qualify scope name)), decodeDecl (qualify scope name) fs]
/-- structs.templ 2-7; entry messages of maps are skipped. -/
def structDeclsAll [Lib] (scope : Bytes) : List MsgD → List Decl
  | [] => []
  | .mk name e fs es ms :: rest => (if e then [] else structDecls scope (.mk name e fs es ms)) ++ structDeclsAll scope rest
end

/-- messages.templ: the enums of a top-level message, then its structs. -/
def messageDecls [Lib] (scope : Bytes) : MsgD → List Decl
  | .mk name e fs es ms => es.flatMap (enumDecls (qualify scope name)) ++ structDecls scope (.mk name e fs es ms)

/-- base.templ: the file. -/
def program [Lib] (f : FileD) : List Decl :=
  [.package (ofBytes (packageName f)), .imports (RequiredImports.map ofBytes), errorsDecl] ++
  f.enums.flatMap (enumDecls f.package) ++ f.messages.flatMap (messageDecls f.package)

end GoText
