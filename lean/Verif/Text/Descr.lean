import Verif.Text.GoTemplates
import Verif.Gen.Schema
import Verif.Gen.Package

/-!
# What the templates of the Go generators work on

Descriptors (protoreflect) with names, the functions of generator.go 47-69 and structs.go as text functions, and the data of
generator.go 115-127.  `GoGen.lean` has the same functions with meanings instead of text.
-/

namespace GoText

open Utils Tmpl
open Gen (PKind)
open Package (EnumD qualify)

/-! ## Descriptors -/

/-- Cardinality of a field; a map has keys of some kind. -/
inductive Shape where
  | one (required : Bool)
  | many
  | map (key : PKind)
deriving DecidableEq, Repr

/-- `protoreflect.FieldDescriptor`.  For a map, `kind` and `type` are those of the values.  `type` is the full name of
the message or enum type. -/
structure FieldD where
  name : Bytes
  shape : Shape
  kind : PKind
  type : Bytes
deriving DecidableEq, Repr

/-- `protoreflect.MessageDescriptor`; protoc adds an entry message for every map field. -/
inductive MsgD where
  | mk (name : Bytes) (mapEntry : Bool) (fields : List FieldD) (enums : List EnumD) (messages : List MsgD)

/-- `protogen.File`: `Desc.Path()`, `Desc.Package()`, `GoPackageName` and the declarations. -/
structure FileD where
  path : Bytes
  package : Bytes
  goPackageName : Bytes
  enums : List EnumD
  messages : List MsgD

/-- `Kind()`: a map is a repeated field of its entry message. -/
def FieldD.Kind (f : FieldD) : PKind :=
  match f.shape with
  | .map _ => .message
  | _ => f.kind

def FieldD.IsMap (f : FieldD) : Bool :=
  match f.shape with
  | .map _ => true
  | _ => false

/-- `Cardinality() == protoreflect.Repeated` -/
def FieldD.IsRepeated (f : FieldD) : Bool :=
  match f.shape with
  | .one _ => false
  | _ => true

/-- The number of a `protoreflect.Kind` (descriptor.proto, `FieldDescriptorProto.Type`). -/
def number : PKind → Nat
  | .double => 1 | .float => 2 | .int64 => 3 | .uint64 => 4 | .int32 => 5 | .fixed64 => 6 | .fixed32 => 7 | .bool => 8
  | .string => 9 | .group => 10 | .message => 11 | .bytes => 12 | .uint32 => 13 | .enum => 14 | .sfixed32 => 15
  | .sfixed64 => 16 | .sint32 => 17 | .sint64 => 18

/-! ## generator/golang/structs.go and v2/generator/golang/structs.go -/

/-- structs.go 33-49 -/
def typeLUT : PKind → Option Bytes
  | .bool => some str!"bool"
  | .int32 => some str!"int32"
  | .sint32 => some str!"int32"
  | .uint32 => some str!"uint32"
  | .int64 => some str!"int64"
  | .sint64 => some str!"int64"
  | .uint64 => some str!"uint64"
  | .sfixed32 => some str!"int32"
  | .sfixed64 => some str!"int64"
  | .fixed32 => some str!"uint32"
  | .fixed64 => some str!"uint64"
  | .float => some str!"float32"
  | .double => some str!"float64"
  | .string => some str!"string"
  | .bytes => some str!"[]byte"
  | _ => none

/-- structs.go 51-68 -/
def encodeLUT : PKind → Option Bytes
  | .bool => some str!".Bool"
  | .int32 => some str!".Int32"
  | .sint32 => some str!".Int32"
  | .uint32 => some str!".Uint32"
  | .int64 => some str!".Int64"
  | .sint64 => some str!".Int64"
  | .uint64 => some str!".Uint64"
  | .sfixed32 => some str!".Int32"
  | .sfixed64 => some str!".Int64"
  | .fixed32 => some str!".Uint32"
  | .fixed64 => some str!".Uint64"
  | .string => some str!".String"
  | .float => some str!".Float32"
  | .double => some str!".Float64"
  | .bytes => some str!".Bytes"
  | .enum => some str!".Uint32"
  | _ => none

/-- structs.go 70-87 -/
def decodeLUT : PKind → Option Bytes
  | .bool => some str!".Bool"
  | .int32 => some str!".Int32"
  | .sint32 => some str!".Int32"
  | .uint32 => some str!".Uint32"
  | .int64 => some str!".Int64"
  | .sint64 => some str!".Int64"
  | .uint64 => some str!".Uint64"
  | .sfixed32 => some str!".Int32"
  | .sfixed64 => some str!".Int64"
  | .fixed32 => some str!".Uint32"
  | .fixed64 => some str!".Uint64"
  | .string => some str!".String"
  | .float => some str!".Float32"
  | .double => some str!".Float64"
  | .bytes => some str!".Bytes"
  | .enum => some str!".Uint32"
  | _ => none

/-- structs.go 89-106 -/
def kindLUT : PKind → Option Bytes
  | .bool => some str!"polyglot.BoolKind"
  | .int32 => some str!"polyglot.Int32Kind"
  | .sint32 => some str!"polyglot.Int32Kind"
  | .uint32 => some str!"polyglot.Uint32Kind"
  | .int64 => some str!"polyglot.Int64Kind"
  | .sint64 => some str!"polyglot.Int64Kind"
  | .uint64 => some str!"polyglot.Uint64Kind"
  | .sfixed32 => some str!"polyglot.Int32Kind"
  | .sfixed64 => some str!"polyglot.Int64Kind"
  | .fixed32 => some str!"polyglot.Uint32Kind"
  | .fixed64 => some str!"polyglot.Uint64Kind"
  | .string => some str!"polyglot.StringKind"
  | .float => some str!"polyglot.Float32Kind"
  | .double => some str!"polyglot.Float64Kind"
  | .bytes => some str!"polyglot.BytesKind"
  | .enum => some str!"polyglot.Uint32Kind"
  | _ => none

/-- defaults.go 20-24 -/
def Pointer : Bytes := str!"*"
def MapSuffix : Bytes := str!"Map"
def Slice : Bytes := str!"[]"
def PolyglotAnyKind : Bytes := str!"polyglot.AnyKind"

/-- structs.go 109-143 `FindValue`; `full` is the full name of the field.  `none`: panics. -/
def FindValue (full : Bytes) (f : FieldD) : Option Bytes :=
  match typeLUT f.Kind with
  | none =>
    match f.Kind with
    | .enum => if f.IsRepeated then some (camelCase (Slice ++ f.type)) else some (camelCase f.type)
    | .message =>
      if f.IsMap then some (camelCase (full ++ MapSuffix))
      else if f.IsRepeated then some (Slice ++ Pointer ++ camelCase f.type) else some (Pointer ++ camelCase f.type)
    | _ => none
  | some kind => some (if f.IsRepeated then Slice ++ kind else kind)

/-- structs.go 145-149 -/
structure EncodingFields where
  MessageFields : List FieldD := []
  SliceFields : List FieldD := []
  Values : List Bytes := []

/-- structs.go 151-183 `GetEncodingFields`; `none`: panics. -/
def GetEncodingFields : List FieldD → Option EncodingFields
  | [] => some {}
  | f :: fs => do
    let r ← GetEncodingFields fs
    if f.IsRepeated ∧ f.IsMap = false then
      some { r with SliceFields := f :: r.SliceFields }
    else
      match encodeLUT f.Kind with
      | none => match f.Kind with
        | .message => some { r with MessageFields := f :: r.MessageFields }
        | _ => none
      | some encoder =>
        if f.Kind = .enum then some { r with Values := (encoder ++ str!"(uint32(x." ++ camelCase f.name ++ str!"))") :: r.Values }
        else some { r with Values := (encoder ++ str!"(x." ++ camelCase f.name ++ str!")") :: r.Values }

/-- structs.go 185-189 -/
structure DecodingFields where
  MessageFields : List FieldD := []
  SliceFields : List FieldD := []
  Other : List FieldD := []

/-- structs.go 191-220 `GetDecodingFields`; `none`: panics. -/
def GetDecodingFields : List FieldD → Option DecodingFields
  | [] => some {}
  | f :: fs => do
    let r ← GetDecodingFields fs
    if f.IsRepeated ∧ f.IsMap = false then
      some { r with SliceFields := f :: r.SliceFields }
    else
      match decodeLUT f.Kind with
      | none => match f.Kind with
        | .message => some { r with MessageFields := f :: r.MessageFields }
        | _ => none
      | some _ => some { r with Other := f :: r.Other }

/-- structs.go 224-236; `none`: panics. -/
def GetKind (kind : PKind) : Option Bytes :=
  match kindLUT kind with
  | some k => some k
  | none => match kind with
    | .message => some PolyglotAnyKind
    | _ => none

/-- structs.go 238-248: a missing key of a Go map gives the empty string. -/
def GetLUTEncoder (kind : PKind) : Bytes := (encodeLUT kind).getD []
def GetLUTDecoder (kind : PKind) : Bytes := (decodeLUT kind).getD []
def GetKindLUT (kind : PKind) : Bytes := (kindLUT kind).getD []

/-! ## Values of the template language -/

/-- generator.go 119-127: the data for `base.templ`. -/
structure Data where
  pluginVersion : Bytes
  sourcePath : Bytes
  package : Bytes
  requiredImports : List Bytes
  scope : Bytes
  enums : List EnumD
  messages : List MsgD
  header : Bool

inductive Val where
  /-- `string`, `protoreflect.Name`, `protoreflect.FullName`: different types in Go -/
  | str (s : Bytes)
  | name (s : Bytes)
  | full (s : Bytes)
  | int (n : Nat)
  | bool (b : Bool)
  | kind (k : PKind)
  | unit
  /-- `[]struct{}` -/
  | units (n : Nat)
  | strs (l : List Bytes)
  | data (d : Data)
  | enums (scope : Bytes) (l : List EnumD)
  | enum (scope : Bytes) (e : EnumD)
  | enumValues (scope : Bytes) (l : List Bytes)
  | enumValue (scope : Bytes) (name : Bytes)
  | messages (scope : Bytes) (l : List MsgD)
  | message (scope : Bytes) (m : MsgD)
  /-- `protoreflect.FieldDescriptors` of the message with full name `owner` -/
  | fields (owner : Bytes) (l : List FieldD)
  /-- `[]protoreflect.FieldDescriptor` -/
  | fieldList (owner : Bytes) (l : List FieldD)
  | field (owner : Bytes) (f : FieldD)
  /-- the `key` or `value` field of a map entry -/
  | entry (f : FieldD)
  /-- the message type a field refers to -/
  | typ (full : Bytes)
  | encoding (owner : Bytes) (e : EncodingFields)
  | decoding (owner : Bytes) (d : DecodingFields)

/-- `MapKey()`, `MapValue()` -/
def FieldD.mapKey (key : PKind) : FieldD := ⟨str!"key", .one false, key, []⟩
def FieldD.mapValue (f : FieldD) : FieldD := ⟨str!"value", .one false, f.kind, f.type⟩

/-- Fields and methods (protoreflect).  What the templates do not use is left out. -/
def get : Val → Nat → List Val → Option Val
  | .data d, id!"header", [] => some (.bool d.header)
  | .data d, id!"pluginVersion", [] => some (.str d.pluginVersion)
  | .data d, id!"sourcePath", [] => some (.str d.sourcePath)
  | .data d, id!"package", [] => some (.str d.package)
  | .data d, id!"requiredImports", [] => some (.strs d.requiredImports)
  | .data d, id!"enums", [] => some (.enums d.scope d.enums)
  | .data d, id!"messages", [] => some (.messages d.scope d.messages)
  | .enums _ l, id!"Len", [] => some (.int l.length)
  | .enums s l, id!"Get", [.int i] => (l[i]?).map (.enum s)
  | .enum s e, id!"FullName", [] => some (.full (qualify s e.name))
  | .enum s e, id!"Values", [] => some (.enumValues s e.values)
  | .enumValues _ l, id!"Len", [] => some (.int l.length)
  | .enumValues s l, id!"Get", [.int i] => (l[i]?).map (.enumValue s)
  -- the full name of an enum value is in the scope of the enum
  | .enumValue s v, id!"FullName", [] => some (.full (qualify s v))
  | .messages _ l, id!"Len", [] => some (.int l.length)
  | .messages s l, id!"Get", [.int i] => (l[i]?).map (.message s)
  | .message s (.mk n _ _ _ _), id!"FullName", [] => some (.full (qualify s n))
  | .message _ (.mk _ e _ _ _), id!"IsMapEntry", [] => some (.bool e)
  | .message s (.mk n _ fs _ _), id!"Fields", [] => some (.fields (qualify s n) fs)
  | .message s (.mk n _ _ es _), id!"Enums", [] => some (.enums (qualify s n) es)
  | .message s (.mk n _ _ _ ms), id!"Messages", [] => some (.messages (qualify s n) ms)
  | .fields _ l, id!"Len", [] => some (.int l.length)
  | .fields o l, id!"Get", [.int i] => (l[i]?).map (.field o)
  | .field _ f, id!"Name", [] => some (.name f.name)
  | .field o f, id!"FullName", [] => some (.full (qualify o f.name))
  | .field _ f, id!"Kind", [] => some (.kind f.Kind)
  -- `protoreflect.Repeated` is 3; the other two are only told apart from it
  | .field _ f, id!"Cardinality", [] => some (.int (if f.IsRepeated then 3 else 1))
  | .field _ f, id!"IsMap", [] => some (.bool f.IsMap)
  | .field _ ⟨_, .map k, _, _⟩, id!"MapKey", [] => some (.entry (.mapKey k))
  | .field _ ⟨n, .map k, v, t⟩, id!"MapValue", [] => some (.entry (FieldD.mapValue ⟨n, .map k, v, t⟩))
  | .field _ f, id!"Message", [] => if f.Kind = .message ∧ f.IsMap = false then some (.typ f.type) else none
  | .entry f, id!"Name", [] => some (.name f.name)
  | .entry f, id!"Kind", [] => some (.kind f.Kind)
  | .entry f, id!"Message", [] => if f.Kind = .message then some (.typ f.type) else none
  | .typ s, id!"FullName", [] => some (.full s)
  | .encoding _ e, id!"Values", [] => some (.strs e.Values)
  | .encoding o e, id!"SliceFields", [] => some (.fieldList o e.SliceFields)
  | .encoding o e, id!"MessageFields", [] => some (.fieldList o e.MessageFields)
  | .decoding o d, id!"Other", [] => some (.fieldList o d.Other)
  | .decoding o d, id!"SliceFields", [] => some (.fieldList o d.SliceFields)
  | .decoding o d, id!"MessageFields", [] => some (.fieldList o d.MessageFields)
  | _, _, _ => none

/-- `text/template`: false, 0, and empty strings and lists count as false. -/
def truth : Val → Bool
  | .bool b => b
  | .int n => n ≠ 0
  | .str s => s ≠ []
  | .strs l => l ≠ []
  | .fieldList _ l => match l with
    | [] => false
    | _ => true
  | _ => true

/-- The functions of generator.go 47-69 and the built-in functions `eq`, `ne`, `and`, `or`, `not` of `text/template`.
`CustomFields`, `CustomEncode` and `CustomDecode` are as generator.go 73-75 sets them. -/
def func : Nat → List Val → Option Val
  | id!"CamelCase", [.full s] => some (.str (camelCase s))
  | id!"CamelCaseName", [.name s] => some (.str (camelCase s))
  | id!"MakeIterable", [.int n] => some (.units n)
  | id!"FindValue", [.field o f] => (FindValue (qualify o f.name) f).map .str
  | id!"FindValue", [.entry f] => (FindValue [] f).map .str
  | id!"GetKind", [.kind k] => (GetKind k).map .str
  | id!"GetLUTEncoder", [.kind k] => some (.str (GetLUTEncoder k))
  | id!"GetLUTDecoder", [.kind k] => some (.str (GetLUTDecoder k))
  | id!"GetKindLUT", [.kind k] => some (.str (GetKindLUT k))
  | id!"GetEncodingFields", [.fields o l] => (GetEncodingFields l).map (.encoding o)
  | id!"GetDecodingFields", [.fields o l] => (GetDecodingFields l).map (.decoding o)
  | id!"CustomFields", [] => some (.str [])
  | id!"CustomEncode", [] => some (.str [])
  | id!"CustomDecode", [] => some (.str [])
  | id!"eq", [.kind k, .int n] => some (.bool (number k = n))
  | id!"ne", [.int a, .int b] => some (.bool (a ≠ b))
  | id!"eq", [.str a, .str b] => some (.bool (a = b))
  | id!"and", [a, b] => some (if truth a then b else a)
  | id!"or", [a, b, c, d] => some (if truth a then a else if truth b then b else if truth c then c else d)
  | id!"not", [a] => some (.bool !(truth a))
  | _, _ => none

/-- A number in decimal. -/
def decimal (n : Nat) : Bytes := (Nat.toDigits 10 n).map fun c => BitVec.ofNat 8 c.toNat

/-- Printing of a value. -/
def print : Val → Option Bytes
  | .str s => some s
  | .name s => some s
  | .full s => some s
  | .int n => some (decimal n)
  | _ => none

def iter : Val → Option (List (Val × Val))
  | .units n => some ((List.range n).map fun i => (.int i, .unit))
  | .strs l => some (l.mapIdx fun i s => (.int i, .str s))
  | .fieldList o l => some (l.mapIdx fun i f => (.int i, .field o f))
  | _ => none

/-- The language of the templates. -/
def lang : Lang Val := { str := .str, num := .int, get := get, func := func, truth := truth, iter := iter, print := print }

/-! ## The generator -/

/-- imports.go 19-24: the path of the library. -/
def libraryPath [Lib] : Bytes := Lib.pick str!"github.com/loopholelabs/polyglot" str!"github.com/loopholelabs/polyglot/v2"

/-- imports.go 19-24 -/
def RequiredImports [Lib] : List Bytes := [libraryPath, str!"errors"]

/-- version/current_version and v2/version/current_version, embedded by version.go 23-24 and returned as they are (26-28).  Both
files end with a newline. -/
def currentVersion [Lib] : Bytes := Lib.pick str!"v1.3.0\n" str!"v2.0.5\n"

/-- `protoreflect.FullName.Name`: the part after the last dot. -/
def lastName (s : Bytes) : Bytes := (s.reverse.takeWhile (· ≠ dot)).reverse

/-- generator.go 103-106 -/
def packageName (f : FileD) : Bytes := if lastName f.package = [] then f.goPackageName else lastName f.package

/-- generator.go 119-127 -/
def data [Lib] (version : Bytes) (f : FileD) : Data :=
  { pluginVersion := version, sourcePath := f.path, package := packageName f, requiredImports := RequiredImports, scope := f.package,
    enums := f.enums, messages := f.messages, header := true }

/-- generator.go 113-128 `ExecuteTemplate`: the text of the generated file (before `protogen` parses and formats it).  `fuel`
bounds the depth of template calls; `none` if it is exceeded or executing the template fails. -/
def generate [Lib] (version : Bytes) (fuel : Nat) (f : FileD) : Option Bytes :=
  Tmpl.exec lang (Tmpl.run lang GoTempl.defs fuel) GoTempl.baseBody [(0, .data (data version f))] (.data (data version f))

end GoText
