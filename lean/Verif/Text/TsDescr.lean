import Verif.Text.TsTemplates
import Verif.Text.Plugin
import Verif.Text.GoDeclared

/-!
# What the templates of the TypeScript generator work on

The descriptors are those of `Descr.lean`; the functions of generator.go 46-87 and structs.go as text functions, and the data of
generator.go 146-160.  `TsGen.lean` has the same functions as a model of names and of the order of fields; `deps` of generator.go
88-101 and 168-172 (the names recorded while the body is printed) are `TsGen.depsField`.
-/

namespace TsText

open Utils Tmpl
open Gen (PKind)
open GoText (FieldD MsgD FileD number decimal)
open Package (EnumD qualify)

/-! ## generator/typescript/structs.go -/

/-- structs.go 34-50 -/
def typeLUT : PKind → Option Bytes
  | .bool => some str!"boolean"
  | .int32 => some str!"number"
  | .sint32 => some str!"number"
  | .uint32 => some str!"number"
  | .int64 => some str!"number"
  | .sint64 => some str!"number"
  | .uint64 => some str!"number"
  | .sfixed32 => some str!"number"
  | .sfixed64 => some str!"number"
  | .fixed32 => some str!"number"
  | .fixed64 => some str!"number"
  | .float => some str!"number"
  | .double => some str!"number"
  | .string => some str!"string"
  | .bytes => some str!"Uint8Array"
  | _ => none

/-- structs.go 52-69 -/
def encodeLUT : PKind → Option Bytes
  | .bool => some str!"encodeBoolean"
  | .int32 => some str!"encodeInt32"
  | .sint32 => some str!"encodeInt32"
  | .uint32 => some str!"encodeUint32"
  | .int64 => some str!"encodeInt64"
  | .sint64 => some str!"encodeInt64"
  | .uint64 => some str!"encodeUint64"
  | .sfixed32 => some str!"encodeInt32"
  | .sfixed64 => some str!"encodeInt64"
  | .fixed32 => some str!"encodeUint32"
  | .fixed64 => some str!"encodeUint64"
  | .string => some str!"encodeString"
  | .float => some str!"encodeFloat32"
  | .double => some str!"encodeFloat64"
  | .bytes => some str!"encodeBytes"
  | .enum => some str!"encodeUint32"
  | _ => none

/-- structs.go 71-88 -/
def decodeLUT : PKind → Option Bytes
  | .bool => some str!"decodeBoolean"
  | .int32 => some str!"decodeInt32"
  | .sint32 => some str!"decodeInt32"
  | .uint32 => some str!"decodeUint32"
  | .int64 => some str!"decodeInt64"
  | .sint64 => some str!"decodeInt64"
  | .uint64 => some str!"decodeUint64"
  | .sfixed32 => some str!"decodeInt32"
  | .sfixed64 => some str!"decodeInt64"
  | .fixed32 => some str!"decodeUint32"
  | .fixed64 => some str!"decodeUint64"
  | .string => some str!"decodeString"
  | .float => some str!"decodeFloat32"
  | .double => some str!"decodeFloat64"
  | .bytes => some str!"decodeBytes"
  | .enum => some str!"decodeUint32"
  | _ => none

/-- structs.go 90-107 -/
def kindLUT : PKind → Option Bytes
  | .bool => some str!"Kind.Bool"
  | .int32 => some str!"Kind.Int32"
  | .sint32 => some str!"Kind.Int32"
  | .uint32 => some str!"Kind.U32"
  | .int64 => some str!"Kind.I64"
  | .sint64 => some str!"Kind.I64"
  | .uint64 => some str!"Kind.U64"
  | .sfixed32 => some str!"Kind.Int32"
  | .sfixed64 => some str!"Kind.I64"
  | .fixed32 => some str!"Kind.U32"
  | .fixed64 => some str!"Kind.U64"
  | .string => some str!"Kind.String"
  | .float => some str!"Kind.F32"
  | .double => some str!"Kind.F64"
  | .bytes => some str!"Kind.Bytes"
  | .enum => some str!"Kind.U32"
  | _ => none

/-- defaults.go 21 -/
def polyglotAnyKind : Bytes := str!"Kind.Any"

/-- structs.go 110-144 `findValue` for a field that is no map. -/
def findElem (k : PKind) (type : Bytes) (repeated : Bool) : Option Bytes :=
  match typeLUT k with
  | none =>
    match k with
    | .enum => some (if repeated then camelCase type ++ str!"[]" else camelCase type)
    | .message => some (if repeated then camelCase type ++ str!"[]" else camelCase type)
    | _ => none
  | some kind => some (if repeated then kind ++ str!"[]" else kind)

/-- structs.go 110-144 `findValue`; `none`: panics. -/
def findValue (f : FieldD) : Option Bytes :=
  match f.shape with
  | .one _ => findElem f.kind f.type false
  | .many => findElem f.kind f.type true
  | .map kk => do
    let k ← findElem kk [] false
    let v ← findElem f.kind f.type false
    some (str!"Map<" ++ k ++ str!", " ++ v ++ str!">")

/-- structs.go 146-150 -/
structure EncodingFields where
  MessageFields : List FieldD := []
  SliceFields : List FieldD := []
  Values : List Bytes := []

/-- structs.go 152-185 `getEncodingFields`; `none`: panics. -/
def getEncodingFields : List FieldD → Option EncodingFields
  | [] => some {}
  | f :: fs => do
    let r ← getEncodingFields fs
    if f.IsRepeated ∧ f.IsMap = false then
      some { r with SliceFields := f :: r.SliceFields }
    else
      match encodeLUT f.Kind with
      | none => match f.Kind with
        | .message => some { r with MessageFields := f :: r.MessageFields }
        | _ => none
      | some encoder =>
        if f.Kind = .enum then some { r with Values := (encoder ++ str!"(encoded, this." ++ lowercaseCamelCase f.name ++ str!" as number)") :: r.Values }
        else some { r with Values := (encoder ++ str!"(encoded, this." ++ lowercaseCamelCase f.name ++ str!")") :: r.Values }

/-- structs.go 187-191 -/
structure DecodingFields where
  MessageFields : List FieldD := []
  SliceFields : List FieldD := []
  Other : List FieldD := []

/-- structs.go 193-219 `getDecodingFields`; `none`: panics. -/
def getDecodingFields : List FieldD → Option DecodingFields
  | [] => some {}
  | f :: fs => do
    let r ← getDecodingFields fs
    if f.IsRepeated ∧ f.IsMap = false then
      some { r with SliceFields := f :: r.SliceFields }
    else
      match decodeLUT f.Kind with
      | none => match f.Kind with
        | .message => some { r with MessageFields := f :: r.MessageFields }
        | _ => none
      | some _ => some { r with Other := f :: r.Other }

/-- structs.go 221-235; `none`: panics. -/
def getKind (kind : PKind) : Option Bytes :=
  match kindLUT kind with
  | some k => some k
  | none => match kind with
    | .message => some polyglotAnyKind
    | _ => none

/-- structs.go 237-261: a missing key of a Go map gives the empty string. -/
def getLUTEncoder (kind : PKind) : Bytes := (encodeLUT kind).getD []
def getLUTDecoder (kind : PKind) : Bytes := (decodeLUT kind).getD []
def getKindLUT (kind : PKind) : Bytes := (kindLUT kind).getD []

/-- `strings.TrimSuffix` -/
def trimSuffix (s x : Bytes) : Bytes := if s.drop (s.length - x.length) = x then s.take (s.length - x.length) else s

/-! ## Values of the template language -/

/-- generator.go 146-160: the data for `body.templ` and `head.templ`; `dependencies` are the keys of the map of the generator, sorted as
`range` goes through them.  The package name and the header flag are not used by the templates. -/
structure Data where
  pluginVersion : Bytes
  sourcePath : Bytes
  scope : Bytes
  enums : List EnumD
  messages : List MsgD
  dependencies : List Bytes

inductive Val where
  /-- `string`, `protoreflect.Name`, `protoreflect.FullName`: different types in Go -/
  | str (s : Bytes)
  | name (s : Bytes)
  | full (s : Bytes)
  | int (n : Nat)
  | bool (b : Bool)
  | kind (k : PKind)
  | unit
  /-- `[]struct{}` -/
  | units (n : Nat)
  | strs (l : List Bytes)
  | data (d : Data)
  /-- `map[string]struct{}` -/
  | set (l : List Bytes)
  | enums (scope : Bytes) (l : List EnumD)
  | enum (scope : Bytes) (e : EnumD)
  | enumValues (l : List Bytes)
  | enumValue (name : Bytes)
  | messages (scope : Bytes) (l : List MsgD)
  | message (scope : Bytes) (m : MsgD)
  /-- `protoreflect.FieldDescriptors` -/
  | fields (l : List FieldD)
  /-- `[]protoreflect.FieldDescriptor` -/
  | fieldList (l : List FieldD)
  | field (f : FieldD)
  /-- the message type a field refers to -/
  | typ (full : Bytes)
  /-- the entry message of a map field -/
  | entryType
  | encoding (e : EncodingFields)
  | decoding (d : DecodingFields)

/-- Fields and methods (protoreflect).  What the templates do not use is left out. -/
def get : Val → Nat → List Val → Option Val
  | .data d, id!"pluginVersion", [] => some (.str d.pluginVersion)
  | .data d, id!"sourcePath", [] => some (.str d.sourcePath)
  | .data d, id!"enums", [] => some (.enums d.scope d.enums)
  | .data d, id!"messages", [] => some (.messages d.scope d.messages)
  | .data d, id!"dependencies", [] => some (.set d.dependencies)
  | .enums _ l, id!"Len", [] => some (.int l.length)
  | .enums s l, id!"Get", [.int i] => (l[i]?).map (.enum s)
  | .enum s e, id!"FullName", [] => some (.full (qualify s e.name))
  | .enum _ e, id!"Values", [] => some (.enumValues e.values)
  | .enumValues l, id!"Len", [] => some (.int l.length)
  | .enumValues l, id!"Get", [.int i] => (l[i]?).map .enumValue
  | .enumValue v, id!"Name", [] => some (.name v)
  | .messages _ l, id!"Len", [] => some (.int l.length)
  | .messages s l, id!"Get", [.int i] => (l[i]?).map (.message s)
  | .message s (.mk n _ _ _ _), id!"FullName", [] => some (.full (qualify s n))
  | .message _ (.mk _ e _ _ _), id!"IsMapEntry", [] => some (.bool e)
  | .message _ (.mk _ _ fs _ _), id!"Fields", [] => some (.fields fs)
  | .message s (.mk n _ _ es _), id!"Enums", [] => some (.enums (qualify s n) es)
  | .message s (.mk n _ _ _ ms), id!"Messages", [] => some (.messages (qualify s n) ms)
  | .fields l, id!"Len", [] => some (.int l.length)
  | .fields l, id!"Get", [.int i] => (l[i]?).map .field
  | .field f, id!"Name", [] => some (.name f.name)
  | .field f, id!"Kind", [] => some (.kind f.Kind)
  | .field f, id!"IsMap", [] => some (.bool f.IsMap)
  | .field ⟨_, .map k, _, _⟩, id!"MapKey", [] => some (.field (.mapKey k))
  | .field ⟨n, .map k, v, t⟩, id!"MapValue", [] => some (.field (FieldD.mapValue ⟨n, .map k, v, t⟩))
  | .field f, id!"Message", [] => if f.IsMap then some .entryType else if f.Kind = .message then some (.typ f.type) else none
  | .typ s, id!"FullName", [] => some (.full s)
  | .typ _, id!"IsMapEntry", [] => some (.bool false)
  | .entryType, id!"IsMapEntry", [] => some (.bool true)
  | .encoding e, id!"Values", [] => some (.strs e.Values)
  | .encoding e, id!"SliceFields", [] => some (.fieldList e.SliceFields)
  | .encoding e, id!"MessageFields", [] => some (.fieldList e.MessageFields)
  | .decoding d, id!"Other", [] => some (.fieldList d.Other)
  | .decoding d, id!"SliceFields", [] => some (.fieldList d.SliceFields)
  | .decoding d, id!"MessageFields", [] => some (.fieldList d.MessageFields)
  | _, _, _ => none

/-- `text/template`: false, 0, and empty strings and lists count as false. -/
def truth : Val → Bool
  | .bool b => b
  | .int n => n ≠ 0
  | .str s => s ≠ []
  | .strs l => match l with
    | [] => false
    | _ => true
  | .fieldList l => match l with
    | [] => false
    | _ => true
  | _ => true

/-- The functions of generator.go 46-87 that the templates use and the built-in functions `eq`, `and`, `not` of `text/template`.
`TrackDependency` returns its argument; what it and the look-ups record is `TsGen.depsField`. -/
def func : Nat → List Val → Option Val
  | id!"CamelCase", [.full s] => some (.str (camelCase s))
  | id!"CamelCaseFullName", [.full s] => some (.str (camelCase s))
  | id!"LowercaseCamelCaseName", [.name s] => some (.str (lowercaseCamelCase s))
  | id!"MakeIterable", [.int n] => some (.units n)
  | id!"FindValue", [.field f] => (findValue f).map .str
  | id!"GetKind", [.kind k] => (getKind k).map .str
  | id!"GetLUTEncoder", [.kind k] => some (.str (getLUTEncoder k))
  | id!"GetLUTDecoder", [.kind k] => some (.str (getLUTDecoder k))
  | id!"GetKindLUT", [.kind k] => some (.str (getKindLUT k))
  | id!"GetEncodingFields", [.fields l] => (getEncodingFields l).map .encoding
  | id!"GetDecodingFields", [.fields l] => (getDecodingFields l).map .decoding
  | id!"TrackDependency", [.str s] => some (.str s)
  | id!"TrimSuffix", [.str a, .str b] => some (.str (trimSuffix a b))
  | id!"eq", [.kind k, .int n] => some (.bool (number k = n))
  | id!"eq", [.str a, .str b] => some (.bool (a = b))
  | id!"and", [a, b] => some (if truth a then b else a)
  | id!"not", [a] => some (.bool !(truth a))
  | _, _ => none

/-- Printing of a value. -/
def print : Val → Option Bytes
  | .str s => some s
  | .name s => some s
  | .full s => some s
  | .int n => some (decimal n)
  | _ => none

def iter : Val → Option (List (Val × Val))
  | .units n => some ((List.range n).map fun i => (.int i, .unit))
  | .strs l => some (l.mapIdx fun i s => (.int i, .str s))
  | .fieldList l => some (l.mapIdx fun i f => (.int i, .field f))
  | .set l => some (l.map fun s => (.str s, .unit))
  | _ => none

/-- The language of the templates. -/
def lang : Lang Val :=
  { str := .str, num := .int, get := get, func := func, truth := truth, iter := iter, print := print }

/-! ## The generator -/

/-- generator.go 146-160 -/
def data (version : Bytes) (deps : List Bytes) (f : FileD) : Data :=
  { pluginVersion := version, sourcePath := f.path, scope := f.package, enums := f.enums, messages := f.messages, dependencies := deps }

/-- generator.go 139-166 `ExecuteTemplate`: the body is executed first, with the enums and messages only; then the head, when the names
the body uses are recorded; the file has the head first.  `fuel` bounds the depth of template calls; `none` if it is exceeded or
executing a template fails. -/
def generate (version : Bytes) (deps : List Bytes) (fuel : Nat) (f : FileD) : Option Bytes := do
  let body ← Tmpl.exec lang (Tmpl.run lang TsTempl.defs fuel) TsTempl.bodyBody [(0, .data (data version deps f))] (.data (data version deps f))
  let head ← Tmpl.exec lang (Tmpl.run lang TsTempl.defs fuel) TsTempl.headBody [(0, .data (data version deps f))] (.data (data version deps f))
  some (head ++ body)

end TsText
