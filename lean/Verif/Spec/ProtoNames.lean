import Verif.Gen.Package

/-! # What a proto file declares, by full name (proto language specification, independent of the generators) -/

namespace Package

mutual
/-- The full names of a message and of all messages inside. -/
def MsgD.fullNames (scope : Bytes) : MsgD → List Bytes
  | .mk name _ _ messages => qualify scope name :: fullNamesAll (qualify scope name) messages
def fullNamesAll (scope : Bytes) : List MsgD → List Bytes
  | [] => []
  | m :: ms => m.fullNames scope ++ fullNamesAll scope ms
end

mutual
/-- The full names of the map fields of a message and of all messages inside. -/
def MsgD.mapFields (scope : Bytes) : MsgD → List Bytes
  | .mk name fields _ messages =>
    ((fields.filter fun f => f.shape = .map).map fun f => qualify (qualify scope name) f.name) ++
      mapFieldsAll (qualify scope name) messages
def mapFieldsAll (scope : Bytes) : List MsgD → List Bytes
  | [] => []
  | m :: ms => m.mapFields scope ++ mapFieldsAll scope ms
end

/-- The full names of the messages of a file, at any depth. -/
def FileD.messageNames (f : FileD) : List Bytes := fullNamesAll f.package f.messages
/-- The full names of the map fields of a file, at any depth. -/
def FileD.mapFieldNames (f : FileD) : List Bytes := mapFieldsAll f.package f.messages
/-- The enums at the top of a file and directly inside its top-level messages, with their scopes. -/
def FileD.outerEnums (f : FileD) : List (Bytes × EnumD) :=
  f.enums.map (fun e => (f.package, e)) ++
    f.messages.flatMap fun m => m.enums.map fun e => (qualify f.package m.name, e)
/-- The full names of the outer enums. -/
def FileD.outerEnumNames (f : FileD) : List Bytes := f.outerEnums.map fun p => qualify p.1 p.2.name
/-- The full names of the values of the outer enums. -/
def FileD.outerValueNames (f : FileD) : List Bytes := f.outerEnums.flatMap fun p => p.2.values.map (qualify p.1)
/-- All fields of all messages of a file, at any depth. -/
def FileD.fields (f : FileD) : List FieldD := (allOf f.messages).flatMap MsgD.fields

namespace Rust

/-- A field that is a map, or refers to a message that has one, directly or through further messages. -/
inductive LeadsToMap (W : World) : FieldD → Prop
  | here {fd : FieldD} : fd.shape = .map → LeadsToMap W fd
  | through {fd g : FieldD} {n : Bytes} : fd.ref = .message n → g ∈ W n → LeadsToMap W g → LeadsToMap W fd

end Rust

end Package
