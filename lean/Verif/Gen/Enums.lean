import Verif.Base

/-!
# Enum types in generated code

Model of enums.templ and messages.templ of the three generators (the templates of v1 and v2 are the same).  A constant
is modelled by its proto name and its number; the identifiers derived from names are not modelled.
-/

namespace Gen

/-- `protoreflect.EnumDescriptor`: the declared values, in order, with their names and proto numbers. -/
structure EnumDesc where
  name : String
  values : List (String × Int)
deriving DecidableEq, Repr

/-- `protoreflect.MessageDescriptor`, as far as enums are concerned: the enums and messages declared inside. -/
inductive MessageDesc where
  | mk (name : String) (enums : List EnumDesc) (messages : List MessageDesc)

def MessageDesc.enums : MessageDesc → List EnumDesc
  | .mk _ es _ => es

def MessageDesc.messages : MessageDesc → List MessageDesc
  | .mk _ _ ms => ms

/-- `protoreflect.FileDescriptor` -/
structure FileDesc where
  enums : List EnumDesc
  messages : List MessageDesc

/-- A generated enum type: its name and its constants with their numbers. -/
structure EnumType where
  name : String
  constants : List (String × Nat)
deriving DecidableEq, Repr

/-- utils/utils.go `MakeIterable` under `range $i, $_`: the indices. -/
def MakeIterable (n : Nat) : List Nat := List.range n

namespace Go
/-- v2/generator/golang/templates/enums.templ 8-18 (generator/golang is the same): `Name = Enum($i)`, type `uint32`. -/
def enumTempl (e : EnumDesc) : EnumType :=
  ⟨e.name, (MakeIterable e.values.length).filterMap fun i => (e.values[i]?).map fun val => (val.1, i)⟩

/-- enums.templ 1-6 and messages.templ 1-10: all enum types of a generated file. -/
def enumTypes (f : FileDesc) : List EnumType :=
  (MakeIterable f.enums.length).filterMap (fun i => (f.enums[i]?).map enumTempl) ++
  ((MakeIterable f.messages.length).filterMap (fun i => f.messages[i]?)).flatMap fun message =>
    (MakeIterable message.enums.length).filterMap fun i => (message.enums[i]?).map enumTempl
end Go

namespace Rs
/-- generator/rust/templates/enums.templ 8-18: `#[repr(u32)] pub enum E { Name = $i, .. }`. -/
def enumTempl (e : EnumDesc) : EnumType :=
  ⟨e.name, (MakeIterable e.values.length).filterMap fun i => (e.values[i]?).map fun val => (val.1, i)⟩

/-- enums.templ 1-6 and messages.templ 1-18. -/
def enumTypes (f : FileDesc) : List EnumType :=
  (MakeIterable f.enums.length).filterMap (fun i => (f.enums[i]?).map enumTempl) ++
  ((MakeIterable f.messages.length).filterMap (fun i => f.messages[i]?)).flatMap fun message =>
    (MakeIterable message.enums.length).filterMap fun i => (message.enums[i]?).map enumTempl
end Rs

namespace Ts
/-- generator/typescript/templates/enums.templ 8-16: `enum E { Name = $i, .. }`. -/
def enumTempl (e : EnumDesc) : EnumType :=
  ⟨e.name, (MakeIterable e.values.length).filterMap fun i => (e.values[i]?).map fun val => (val.1, i)⟩

/-- enums.templ 1-6 and messages.templ 1-10. -/
def enumTypes (f : FileDesc) : List EnumType :=
  (MakeIterable f.enums.length).filterMap (fun i => (f.enums[i]?).map enumTempl) ++
  ((MakeIterable f.messages.length).filterMap (fun i => f.messages[i]?)).flatMap fun message =>
    (MakeIterable message.enums.length).filterMap fun i => (message.enums[i]?).map enumTempl
end Ts

end Gen
