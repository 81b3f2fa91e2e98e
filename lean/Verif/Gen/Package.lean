import Verif.Gen.Utils

/-!
# The identifiers of generated files

Model of the parts of the Go and Rust generators that decide which identifiers a generated file declares, uses and imports.
Bodies of functions are modelled in GoGen.lean and RustGen.lean; here only names matter.  Names are the bytes of proto
identifiers.  Synthesised map-entry messages are left out of `MsgD.messages` (structs.templ skips them: `IsMapEntry`).
-/

namespace Package

open Utils

/-- `protoreflect.EnumDescriptor`: name and the names of its values. -/
structure EnumD where
  name : Bytes
  values : List Bytes
deriving DecidableEq, Repr

/-- What a field, or the values of a map field, refer to; types by full name. -/
inductive Ref where
  | scalar
  | message (full : Bytes)
  | enum (full : Bytes)
deriving DecidableEq, Repr

/-- Cardinality of a field.  Map keys are scalars. -/
inductive Shape where
  | one | many | map
deriving DecidableEq, Repr

/-- `protoreflect.FieldDescriptor` -/
structure FieldD where
  name : Bytes
  shape : Shape
  ref : Ref
deriving DecidableEq, Repr

/-- `protoreflect.MessageDescriptor`: name, fields, and the enums and messages declared inside. -/
inductive MsgD where
  | mk (name : Bytes) (fields : List FieldD) (enums : List EnumD) (messages : List MsgD)

def MsgD.name : MsgD → Bytes
  | .mk n _ _ _ => n
def MsgD.fields : MsgD → List FieldD
  | .mk _ fs _ _ => fs
def MsgD.enums : MsgD → List EnumD
  | .mk _ _ es _ => es
def MsgD.messages : MsgD → List MsgD
  | .mk _ _ _ ms => ms

/-- `protoreflect.FileDescriptor`; `package` is empty for a file without a package. -/
structure FileD where
  package : Bytes
  enums : List EnumD
  messages : List MsgD

/-- The full name of something declared in a scope.  (The values of an enum belong to the scope of the enum.) -/
def qualify (scope name : Bytes) : Bytes := if scope = [] then name else scope ++ dot :: name

/-! ## Go: v2/generator/golang/templates (generator/golang is the same up to the name of the error variable) -/

namespace Go

/-- errors.templ 1-5 -/
def errDecodeNil : Bytes := ascii "ErrDecodeNil"

/-- enums.templ 8-18: the type and its constants. -/
def enumDecls (scope : Bytes) (e : EnumD) : List Bytes :=
  camelCase (qualify scope e.name) :: e.values.map fun v => camelCase (qualify scope v)

/-- structs.templ 11-16: `type ..Map` and `func New..Map` for a map field of a message with this full name. -/
def mapDecls (full : Bytes) (f : FieldD) : List Bytes :=
  if f.shape = .map then
    [camelCase (qualify full f.name) ++ ascii "Map", ascii "New" ++ camelCase (qualify full f.name) ++ ascii "Map"]
  else []

mutual
/-- structs.templ 1-43: nested messages first, then the map types, the struct and `New..`. -/
def structDecls (scope : Bytes) : MsgD → List Bytes
  | .mk name fields _ messages =>
    structDeclsAll (qualify scope name) messages ++ fields.flatMap (mapDecls (qualify scope name)) ++
      [camelCase (qualify scope name), ascii "New" ++ camelCase (qualify scope name)]
/-- structs.templ 2-7 -/
def structDeclsAll (scope : Bytes) : List MsgD → List Bytes
  | [] => []
  | m :: ms => structDecls scope m ++ structDeclsAll scope ms
end

/-- messages.templ 2-9: the enums of a top-level message, then its structs. -/
def messageDecls (scope : Bytes) (m : MsgD) : List Bytes :=
  m.enums.flatMap (enumDecls (qualify scope m.name)) ++ structDecls scope m

/-- base.templ: all package-level identifiers a file declares. -/
def decls (f : FileD) : List Bytes :=
  errDecodeNil :: f.enums.flatMap (enumDecls f.package) ++ f.messages.flatMap (messageDecls f.package)

/-- v2/generator/golang/defaults.go 22-23: `MapSuffix`, `Slice` -/
def mapSuffix : Bytes := ascii "Map"
def slice : Bytes := ascii "[]"

/-- v2/generator/golang/structs.go 109-143, decode.templ 46-87 and decodeMap.templ 33: the identifiers used for a field of a message
with this full name: its type, and `New..` for messages and maps.  For a repeated enum `FindValue` converts the whole
text `[]` + name (117); the identifier is what follows the brackets. -/
def fieldUses (owner : Bytes) (f : FieldD) : List Bytes :=
  (if f.shape = .map then
    [camelCase (qualify owner f.name ++ mapSuffix), ascii "New" ++ camelCase (qualify owner f.name) ++ ascii "Map"] else []) ++
  match f.ref with
  | .scalar => []
  | .enum full => if f.shape = .many then [(camelCase (slice ++ full)).drop 2] else [camelCase full]
  | .message full => [camelCase full, ascii "New" ++ camelCase full]

mutual
/-- All package-level identifiers used in the structs of a message and the messages inside. -/
def structUses (scope : Bytes) : MsgD → List Bytes
  | .mk name fields _ messages =>
    structUsesAll (qualify scope name) messages ++ fields.flatMap (fieldUses (qualify scope name))
def structUsesAll (scope : Bytes) : List MsgD → List Bytes
  | [] => []
  | m :: ms => structUses scope m ++ structUsesAll scope ms
end

/-- All package-level identifiers a file uses; decode.templ 4 uses `ErrDecodeNil` for every message. -/
def uses (f : FileD) : List Bytes :=
  (if f.messages = [] then [] else [errDecodeNil]) ++ structUsesAll f.package f.messages

/-- imports.go 19-24: the imported packages. -/
def imports : List Bytes := [ascii "errors", ascii "polyglot"]

/-- errors.templ 3 uses package `errors`; everything that uses package `polyglot` is in structs.templ, once per message at least. -/
def usedImports (f : FileD) : List Bytes :=
  ascii "errors" :: (if f.messages = [] then [] else [ascii "polyglot"])

/-- structs.templ 22-37: the members of the struct of a message, fields and methods. -/
def fieldNames (m : MsgD) : List Bytes := m.fields.map fun f => camelCase f.name
/-- structs.templ 33-36: the methods generated for every message. -/
def methods : List Bytes := [ascii "Error", ascii "Encode", ascii "Decode", ascii "decode"]

end Go

mutual
/-- A message and all messages inside. -/
def MsgD.all : MsgD → List MsgD
  | .mk n fs es ms => .mk n fs es ms :: allOf ms
def allOf : List MsgD → List MsgD
  | [] => []
  | m :: ms => m.all ++ allOf ms
end

/-- What the Go compiler asks of the identifiers of the files of one package: declared once, declared if used, imports
used, fields and methods of a struct distinct.  (Go specification: Declarations and scope, Import declarations, Method
declarations.) -/
structure GoNamesOk (files : List FileD) : Prop where
  unique : (files.flatMap Go.decls).Nodup
  declared : ∀ f ∈ files, ∀ u ∈ Go.uses f, u ∈ files.flatMap Go.decls
  imports : ∀ f ∈ files, ∀ i ∈ Go.imports, i ∈ Go.usedImports f
  members : ∀ f ∈ files, ∀ m ∈ allOf f.messages, (Go.fieldNames m ++ Go.methods).Nodup

/-! ## Rust: generator/rust -/

namespace Rust

/-- The descriptor pointers of `protogen`: the fields of the message type with a full name (in whatever file). -/
abbrev World := Bytes → List FieldD

/-- imports.go 23-26 -/
structure Dependencies where
  Enums : Bool
  Maps : Bool
deriving DecidableEq, Repr

/-- imports.go 52-65 `traverseFields` for a message with these fields; `none` if the call stack gets deeper than `fuel`: Go aborts
the program.  A map field is a field of message kind whose message is a map entry (two fields: key and value). -/
def traverseFields (W : World) : (fuel : Nat) → List FieldD → Dependencies → Option Dependencies
  | 0, _, _ => none
  | _ + 1, [], d => some d
  | fuel + 1, f :: fs, d =>
    match f.shape with
    | .map =>
      -- the entry: a scalar key and the value
      match traverseFields W fuel [⟨ascii "key", .one, .scalar⟩, ⟨ascii "value", .one, f.ref⟩] { d with Maps := true } with
      | none => none
      | some d => traverseFields W (fuel + 1) fs d
    | _ =>
      match f.ref with
      | .message full =>
        if (W full).length > 0 then
          match traverseFields W fuel (W full) d with
          | none => none
          | some d => traverseFields W (fuel + 1) fs d
        else traverseFields W (fuel + 1) fs d
      | _ => traverseFields W (fuel + 1) fs d
termination_by fuel fs => (fuel, fs.length)

/-- imports.go 37-49: the loop over the messages of the file; its body is the body of `traverseFields`. -/
def traverseMessages (W : World) (fuel : Nat) : List MsgD → Dependencies → Option Dependencies
  | [], d => some d
  | m :: ms, d =>
    match traverseFields W fuel m.fields d with
    | none => none
    | some d => traverseMessages W fuel ms d

/-- imports.go 28-50 -/
def DependencyAnalysis (W : World) (fuel : Nat) (f : FileD) : Option Dependencies :=
  traverseMessages W fuel f.messages ⟨f.enums.length > 0, false⟩

/-- imports.templ: what is brought into scope. -/
def imports (d : Dependencies) : List Bytes :=
  [ascii "Cursor", ascii "DecodingError", ascii "Encoder", ascii "Decoder", ascii "Kind"] ++
    (if d.Enums then [ascii "TryFromPrimitive", ascii "TryFrom"] else []) ++ (if d.Maps then [ascii "HashMap"] else [])

/-- messages.templ 2-8: the traits declared in every file. -/
def traits : List Bytes := [ascii "Encode", ascii "Decode"]

mutual
/-- structs.templ 1-22: the structs of a message and the messages inside. -/
def structDecls (scope : Bytes) : MsgD → List Bytes
  | .mk name _ _ messages => structDeclsAll (qualify scope name) messages ++ [camelCase (qualify scope name)]
def structDeclsAll (scope : Bytes) : List MsgD → List Bytes
  | [] => []
  | m :: ms => structDecls scope m ++ structDeclsAll scope ms
end

/-- messages.templ 9-16 -/
def messageDecls (scope : Bytes) (m : MsgD) : List Bytes :=
  (m.enums.map fun e => camelCase (qualify (qualify scope m.name) e.name)) ++ structDecls scope m

/-- The types and traits a file declares. -/
def decls (f : FileD) : List Bytes :=
  (f.enums.map fun e => camelCase (qualify f.package e.name)) ++ traits ++ f.messages.flatMap (messageDecls f.package)

/-- structs.go 110-144: the types used for a field. -/
def fieldUses (f : FieldD) : List Bytes :=
  (if f.shape = .map then [ascii "HashMap"] else []) ++
  match f.ref with
  | .scalar => []
  | .enum full => [camelCase full]
  | .message full => [camelCase full]

mutual
/-- structs.templ 1-22 with the templates inside: the types used by the structs of a message and the messages inside. -/
def structUses : MsgD → List Bytes
  | .mk _ fields _ messages => structUsesAll messages ++ fields.flatMap fieldUses
/-- structs.templ 2-7 -/
def structUsesAll : List MsgD → List Bytes
  | [] => []
  | m :: ms => structUses m ++ structUsesAll ms
end

/-- The types and derive macros a file uses; enums.templ 10 derives `TryFromPrimitive` for every enum. -/
def uses (f : FileD) : List Bytes :=
  (if f.enums = [] ∧ (∀ m ∈ f.messages, m.enums = []) then [] else [ascii "TryFromPrimitive"]) ++ structUsesAll f.messages

/-- structs.templ 9-20: the names of the fields. -/
def fieldNames (m : MsgD) : List (List Nat) := m.fields.map fun f => snakeCase (f.name.map BitVec.toNat)

/-- The Rust reference, keywords: strict and reserved, editions 2018 and later. -/
def keywords : List (List Nat) :=
  ["as", "break", "const", "continue", "crate", "else", "enum", "extern", "false", "fn", "for", "if", "impl", "in", "let",
   "loop", "match", "mod", "move", "mut", "pub", "ref", "return", "self", "Self", "static", "struct", "super", "trait", "true",
   "type", "unsafe", "use", "where", "while", "async", "await", "dyn", "abstract", "become", "box", "do", "final", "macro",
   "override", "priv", "typeof", "unsized", "virtual", "yield", "try"].map fun s => s.toList.map Char.toNat

end Rust

/-- What rustc asks of the names of a generated module: types, traits and imports distinct, used names in scope, fields of a
struct distinct and no keywords. -/
structure RustNamesOk (W : Rust.World) (f : FileD) : Prop where
  generated : ∃ fuel d, Rust.DependencyAnalysis W fuel f = some d ∧ (Rust.imports d ++ Rust.decls f).Nodup ∧
    ∀ u ∈ Rust.uses f, u ∈ Rust.imports d ++ Rust.decls f
  fields : ∀ m ∈ allOf f.messages, (Rust.fieldNames m).Nodup ∧ ∀ n ∈ Rust.fieldNames m, n ∉ Rust.keywords

end Package
