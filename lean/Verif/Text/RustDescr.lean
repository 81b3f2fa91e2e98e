import Verif.Text.RustTemplates
import Verif.Text.GoDeclared

/-!
# What the templates of the Rust generator work on

The descriptors are those of `Descr.lean`; the functions of generator.go 59-83 and structs.go as text functions, and the data of
generator.go 143-151.  `RustGen.lean` has the same functions with meanings instead of text.
-/

namespace RustText

open Utils Tmpl
open Gen (PKind)
open GoText (FieldD MsgD FileD number decimal)
open Package (EnumD qualify)

/-! ## generator/rust/structs.go -/

/-- structs.go 34-50 -/
def typeLUT : PKind → Option Bytes
  | .bool => some str!"bool"
  | .int32 => some str!"i32"
  | .sint32 => some str!"i32"
  | .uint32 => some str!"u32"
  | .int64 => some str!"i64"
  | .sint64 => some str!"i64"
  | .uint64 => some str!"u64"
  | .sfixed32 => some str!"i32"
  | .sfixed64 => some str!"i64"
  | .fixed32 => some str!"u32"
  | .fixed64 => some str!"u64"
  | .float => some str!"f32"
  | .double => some str!"f64"
  | .string => some str!"String"
  | .bytes => some str!"Vec<u8>"
  | _ => none

/-- structs.go 52-69 -/
def encodeLUT : PKind → Option Bytes
  | .bool => some str!".encode_bool"
  | .int32 => some str!".encode_i32"
  | .sint32 => some str!".encode_i32"
  | .uint32 => some str!".encode_u32"
  | .int64 => some str!".encode_i64"
  | .sint64 => some str!".encode_i64"
  | .uint64 => some str!".encode_u64"
  | .sfixed32 => some str!".encode_i32"
  | .sfixed64 => some str!".encode_i64"
  | .fixed32 => some str!".encode_u32"
  | .fixed64 => some str!".encode_u64"
  | .string => some str!".encode_string"
  | .float => some str!".encode_f32"
  | .double => some str!".encode_f64"
  | .bytes => some str!".encode_bytes"
  | .enum => some str!".encode_u32"
  | _ => none

/-- structs.go 71-88 -/
def decodeLUT : PKind → Option Bytes
  | .bool => some str!".decode_bool"
  | .int32 => some str!".decode_i32"
  | .sint32 => some str!".decode_i32"
  | .uint32 => some str!".decode_u32"
  | .int64 => some str!".decode_i64"
  | .sint64 => some str!".decode_i64"
  | .uint64 => some str!".decode_u64"
  | .sfixed32 => some str!".decode_i32"
  | .sfixed64 => some str!".decode_i64"
  | .fixed32 => some str!".decode_u32"
  | .fixed64 => some str!".decode_u64"
  | .string => some str!".decode_string"
  | .float => some str!".decode_f32"
  | .double => some str!".decode_f64"
  | .bytes => some str!".decode_bytes"
  | .enum => some str!".decode_u32"
  | _ => none

/-- structs.go 90-107 -/
def kindLUT : PKind → Option Bytes
  | .bool => some str!"Kind::Bool"
  | .int32 => some str!"Kind::I32"
  | .sint32 => some str!"Kind::I32"
  | .uint32 => some str!"Kind::U32"
  | .int64 => some str!"Kind::I64"
  | .sint64 => some str!"Kind::I64"
  | .uint64 => some str!"Kind::U64"
  | .sfixed32 => some str!"Kind::I32"
  | .sfixed64 => some str!"Kind::I64"
  | .fixed32 => some str!"Kind::U32"
  | .fixed64 => some str!"Kind::U64"
  | .string => some str!"Kind::String"
  | .float => some str!"Kind::F32"
  | .double => some str!"Kind::F64"
  | .bytes => some str!"Kind::Bytes"
  | .enum => some str!"Kind::U32"
  | _ => none

/-- defaults.go 21 -/
def polyglotAnyKind : Bytes := str!"Kind::Any"

/-- structs.go 110-144 `findValue` for a field that is no map. -/
def findElem (k : PKind) (type : Bytes) (repeated : Bool) : Option Bytes :=
  match typeLUT k with
  | none =>
    match k with
    | .enum => some (if repeated then str!"Vec<" ++ camelCase type ++ str!">" else camelCase type)
    | .message => some (if repeated then str!"Vec<" ++ camelCase type ++ str!">" else camelCase type)
    | _ => none
  | some kind => some (if repeated then str!"Vec<" ++ kind ++ str!">" else kind)

/-- structs.go 110-144 `findValue`; `none`: panics. -/
def findValue (f : FieldD) : Option Bytes :=
  match f.shape with
  | .one _ => findElem f.kind f.type false
  | .many => findElem f.kind f.type true
  | .map kk => do
    let k ← findElem kk [] false
    let v ← findElem f.kind f.type false
    some (str!"HashMap<" ++ k ++ str!", " ++ v ++ str!">")

/-- utils/utils.go 76-92 `SnakeCase` of a text of ASCII characters (names of proto fields are): its runes are its bytes. -/
def snakeBytes (s : Bytes) : Bytes := (snakeCase (s.map BitVec.toNat)).map (BitVec.ofNat 8)

/-- structs.go 146-150 -/
structure EncodingFields where
  MessageFields : List FieldD := []
  SliceFields : List FieldD := []
  Values : List Bytes := []

/-- structs.go 152-187 `getEncodingFields`; `none`: panics. -/
def getEncodingFields : List FieldD → Option EncodingFields
  | [] => some {}
  | f :: fs => do
    let r ← getEncodingFields fs
    if f.IsRepeated ∧ f.IsMap = false then
      some { r with SliceFields := f :: r.SliceFields }
    else
      match encodeLUT f.Kind with
      | none => match f.Kind with
        | .message => some { r with MessageFields := f :: r.MessageFields }
        | _ => none
      | some encoder =>
        if f.Kind = .enum then some { r with Values := (encoder ++ str!"(self." ++ snakeBytes f.name ++ str!"  as u32)") :: r.Values }
        else if f.Kind = .string then some { r with Values := (encoder ++ str!"(&self." ++ snakeBytes f.name ++ str!")") :: r.Values }
        else if f.Kind = .bytes then some { r with Values := (encoder ++ str!"(&self." ++ snakeBytes f.name ++ str!")") :: r.Values }
        else some { r with Values := (encoder ++ str!"(self." ++ snakeBytes f.name ++ str!")") :: r.Values }

/-- structs.go 189-193 -/
structure DecodingFields where
  MessageFields : List FieldD := []
  SliceFields : List FieldD := []
  Other : List FieldD := []

/-- structs.go 195-223 `getDecodingFields`; `none`: panics. -/
def getDecodingFields : List FieldD → Option DecodingFields
  | [] => some {}
  | f :: fs => do
    let r ← getDecodingFields fs
    if f.IsRepeated ∧ f.IsMap = false then
      some { r with SliceFields := f :: r.SliceFields }
    else
      match decodeLUT f.Kind with
      | none => match f.Kind with
        | .message => some { r with MessageFields := f :: r.MessageFields }
        | _ => none
      | some _ => some { r with Other := f :: r.Other }

/-- structs.go 225-237; `none`: panics. -/
def getKind (kind : PKind) : Option Bytes :=
  match kindLUT kind with
  | some k => some k
  | none => match kind with
    | .message => some polyglotAnyKind
    | _ => none

/-- structs.go 239-249: a missing key of a Go map gives the empty string. -/
def getLUTEncoder (kind : PKind) : Bytes := (encodeLUT kind).getD []
def getLUTDecoder (kind : PKind) : Bytes := (decodeLUT kind).getD []
def getKindLUT (kind : PKind) : Bytes := (kindLUT kind).getD []

/-! ## Values of the template language -/

/-- generator.go 143-151: the data for `base.templ`. -/
structure Data where
  pluginVersion : Bytes
  sourcePath : Bytes
  scope : Bytes
  enums : List EnumD
  messages : List MsgD
  dependencies : Package.Rust.Dependencies

inductive Val where
  /-- `string`, `protoreflect.Name`, `protoreflect.FullName`, `GeneratedFieldPrivacy`: different types in Go -/
  | str (s : Bytes)
  | name (s : Bytes)
  | full (s : Bytes)
  | privacy (s : Bytes)
  | int (n : Nat)
  | bool (b : Bool)
  | kind (k : PKind)
  | unit
  /-- `[]struct{}` -/
  | units (n : Nat)
  | strs (l : List Bytes)
  | data (d : Data)
  | dependencies (d : Package.Rust.Dependencies)
  | enums (scope : Bytes) (l : List EnumD)
  | enum (scope : Bytes) (e : EnumD)
  | enumValues (l : List Bytes)
  | enumValue (name : Bytes)
  | messages (scope : Bytes) (l : List MsgD)
  | message (scope : Bytes) (m : MsgD)
  /-- `protoreflect.FieldDescriptors` -/
  | fields (l : List FieldD)
  /-- `[]protoreflect.FieldDescriptor` -/
  | fieldList (l : List FieldD)
  | field (f : FieldD)
  /-- the message type a field refers to -/
  | typ (full : Bytes)
  /-- the entry message of a map field -/
  | entryType
  | encoding (e : EncodingFields)
  | decoding (d : DecodingFields)

/-- Fields and methods (protoreflect).  What the templates do not use is left out. -/
def get : Val → Nat → List Val → Option Val
  | .data d, id!"pluginVersion", [] => some (.str d.pluginVersion)
  | .data d, id!"sourcePath", [] => some (.str d.sourcePath)
  | .data d, id!"enums", [] => some (.enums d.scope d.enums)
  | .data d, id!"messages", [] => some (.messages d.scope d.messages)
  | .data d, id!"dependencies", [] => some (.dependencies d.dependencies)
  | .dependencies d, id!"Enums", [] => some (.bool d.Enums)
  | .dependencies d, id!"Maps", [] => some (.bool d.Maps)
  | .enums _ l, id!"Len", [] => some (.int l.length)
  | .enums s l, id!"Get", [.int i] => (l[i]?).map (.enum s)
  | .enum s e, id!"FullName", [] => some (.full (qualify s e.name))
  | .enum _ e, id!"Values", [] => some (.enumValues e.values)
  | .enumValues l, id!"Len", [] => some (.int l.length)
  | .enumValues l, id!"Get", [.int i] => (l[i]?).map .enumValue
  | .enumValue v, id!"Name", [] => some (.name v)
  | .messages _ l, id!"Len", [] => some (.int l.length)
  | .messages s l, id!"Get", [.int i] => (l[i]?).map (.message s)
  | .message s (.mk n _ _ _ _), id!"FullName", [] => some (.full (qualify s n))
  | .message _ (.mk _ e _ _ _), id!"IsMapEntry", [] => some (.bool e)
  | .message _ (.mk _ _ fs _ _), id!"Fields", [] => some (.fields fs)
  | .message s (.mk n _ _ es _), id!"Enums", [] => some (.enums (qualify s n) es)
  | .message s (.mk n _ _ _ ms), id!"Messages", [] => some (.messages (qualify s n) ms)
  | .fields l, id!"Len", [] => some (.int l.length)
  | .fields l, id!"Get", [.int i] => (l[i]?).map .field
  | .field f, id!"Name", [] => some (.name f.name)
  | .field f, id!"Kind", [] => some (.kind f.Kind)
  | .field f, id!"IsMap", [] => some (.bool f.IsMap)
  | .field ⟨_, .map k, _, _⟩, id!"MapKey", [] => some (.field (.mapKey k))
  | .field ⟨n, .map k, v, t⟩, id!"MapValue", [] => some (.field (FieldD.mapValue ⟨n, .map k, v, t⟩))
  | .field f, id!"Message", [] => if f.IsMap then some .entryType else if f.Kind = .message then some (.typ f.type) else none
  | .typ s, id!"FullName", [] => some (.full s)
  | .typ _, id!"IsMapEntry", [] => some (.bool false)
  | .entryType, id!"IsMapEntry", [] => some (.bool true)
  | .encoding e, id!"Values", [] => some (.strs e.Values)
  | .encoding e, id!"SliceFields", [] => some (.fieldList e.SliceFields)
  | .encoding e, id!"MessageFields", [] => some (.fieldList e.MessageFields)
  | .decoding d, id!"Other", [] => some (.fieldList d.Other)
  | .decoding d, id!"SliceFields", [] => some (.fieldList d.SliceFields)
  | .decoding d, id!"MessageFields", [] => some (.fieldList d.MessageFields)
  | _, _, _ => none

/-- `text/template`: false, 0, and empty strings and lists count as false. -/
def truth : Val → Bool
  | .bool b => b
  | .int n => n ≠ 0
  | .str s => s ≠ []
  | .strs l => match l with
    | [] => false
    | _ => true
  | .fieldList l => match l with
    | [] => false
    | _ => true
  | _ => true

/-- The functions of generator.go 60-83 that the templates use and the built-in functions `eq`, `and`, `not` of `text/template`.
`privacy` is the value of the flag `privacy` (generator.go 57). -/
def func (privacy : Bytes) : Nat → List Val → Option Val
  | id!"CamelCase", [.full s] => some (.str (camelCase s))
  | id!"SnakeCaseName", [.name s] => some (.str (snakeBytes s))
  | id!"MakeIterable", [.int n] => some (.units n)
  | id!"FindValue", [.field f] => (findValue f).map .str
  | id!"GetKind", [.kind k] => (getKind k).map .str
  | id!"GetLUTEncoder", [.kind k] => some (.str (getLUTEncoder k))
  | id!"GetLUTDecoder", [.kind k] => some (.str (getLUTDecoder k))
  | id!"GetKindLUT", [.kind k] => some (.str (getKindLUT k))
  | id!"GetEncodingFields", [.fields l] => (getEncodingFields l).map .encoding
  | id!"GetDecodingFields", [.fields l] => (getDecodingFields l).map .decoding
  | id!"GeneratedFieldPrivacy", [] => some (.privacy privacy)
  | id!"eq", [.kind k, .int n] => some (.bool (number k = n))
  | id!"eq", [.str a, .str b] => some (.bool (a = b))
  | id!"eq", [.privacy a, .str b] => some (.bool (a = b))
  | id!"and", [a, b] => some (if truth a then b else a)
  | id!"not", [a] => some (.bool !(truth a))
  | _, _ => none

/-- Printing of a value. -/
def print : Val → Option Bytes
  | .str s => some s
  | .name s => some s
  | .full s => some s
  | .int n => some (decimal n)
  | _ => none

def iter : Val → Option (List (Val × Val))
  | .units n => some ((List.range n).map fun i => (.int i, .unit))
  | .strs l => some (l.mapIdx fun i s => (.int i, .str s))
  | .fieldList l => some (l.mapIdx fun i f => (.int i, .field f))
  | _ => none

/-- The language of the templates. -/
def lang (privacy : Bytes) : Lang Val :=
  { str := .str, num := .int, get := get, func := func privacy, truth := truth, iter := iter, print := print }

/-! ## The generator -/

/-- generator.go 143-151; the package name and the header flag are not used by the templates. -/
def data (version : Bytes) (deps : Package.Rust.Dependencies) (f : FileD) : Data :=
  { pluginVersion := version, sourcePath := f.path, scope := f.package, enums := f.enums, messages := f.messages, dependencies := deps }

/-- generator.go 134-154 `ExecuteTemplate`: the text that is given to `rustfmt`.  `fuel` bounds the depth of template calls; `none`
if it is exceeded or executing the template fails. -/
def generate (privacy version : Bytes) (deps : Package.Rust.Dependencies) (fuel : Nat) (f : FileD) : Option Bytes :=
  Tmpl.exec (lang privacy) (Tmpl.run (lang privacy) RustTempl.defs fuel) RustTempl.baseBody [(0, .data (data version deps f))]
    (.data (data version deps f))

end RustText
