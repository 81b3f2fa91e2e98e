import Verif.Text.RustNames

/-!
# The names of a generated Rust file

`Package.Rust` is a model of names only; here the names that the printed program declares are shown to be those.
-/

namespace RustText

open Utils Text RustAst
open GoText (FieldD MsgD FileD eraseAll)
open Package (EnumD qualify)

/-- The names that an item brings into the module (`impl` brings none). -/
def _root_.RustAst.Item.declared : Item → List Ident
  | .use1 segs => segs.getLast?.toList
  | .use2 _ group => group
  | .enum _ n _ => [n]
  | .struct n _ => [n]
  | .trait n _ => [n]
  | .impl _ _ _ _ => []

/-- The structs of an item with the names of their fields. -/
def _root_.RustAst.Item.structs : Item → List (Ident × List Ident)
  | .struct n fs => [(n, fs.map (·.2.1))]
  | _ => []

theorem declared_struct (privacy : Bytes) : ∀ m s, (structItems privacy s m).flatMap Item.declared = (Package.Rust.structDecls s m.erase).map ofBytes := by
  intro m
  induction m using MsgD.rec (motive_2 := fun ms => ∀ s, (structItemsAll privacy s ms).flatMap Item.declared = (Package.Rust.structDeclsAll s (eraseAll ms)).map ofBytes) with
  | mk n e fs es ms ih =>
    intro s
    rw [structItems, MsgD.erase, Package.Rust.structDecls]
    simp only [List.flatMap_append, List.map_append, ih]
    rfl
  | nil => rename_i s; simp [structItemsAll, eraseAll, Package.Rust.structDeclsAll]
  | cons m ms ihm ih =>
    rename_i s
    obtain ⟨n, e, fs, es, mm⟩ := m
    rw [structItemsAll, eraseAll]
    cases e with
    | true => simpa using ih s
    | false => simp [Package.Rust.structDeclsAll, ihm s, ih s]

theorem declared_enums (s : Bytes) (es : List EnumD) : (es.map (enumItem s)).flatMap Item.declared = (es.map fun e => camelCase (qualify s e.name)).map ofBytes := by
  induction es with
  | nil => rfl
  | cons e es ih => simp only [List.map_cons, List.flatMap_cons, ih]; rfl

theorem declared_program (privacy : Bytes) (d : Package.Rust.Dependencies) (f : FileD) :
    (program privacy d f).flatMap Item.declared = (Package.Rust.imports d ++ Package.Rust.decls f.erase).map ofBytes := by
  have hm : ∀ m s, (messageItems privacy s m).flatMap Item.declared = (Package.Rust.messageDecls s m.erase).map ofBytes := by
    intro m s
    obtain ⟨n, e, fs, es, ms⟩ := m
    rw [messageItems, List.flatMap_append, declared_struct, declared_enums, Package.Rust.messageDecls]
    simp only [List.map_append, MsgD.erase]
    rfl
  have hi : (importItems d).flatMap Item.declared = (Package.Rust.imports d).map ofBytes := by
    obtain ⟨a, b⟩ := d
    cases a <;> cases b <;> decide +kernel
  have ht : traitItems.flatMap Item.declared = Package.Rust.traits.map ofBytes := by decide +kernel
  rw [program, List.flatMap_append, List.flatMap_append, List.flatMap_append, declared_enums]
  simp only [hi, ht, List.flatMap_assoc, hm, List.map_append, Package.Rust.decls, FileD.erase, List.map_flatMap,
    List.flatMap_map, List.append_assoc]

/-! ## Fields -/

mutual
/-- The structs that are declared for a message and those inside, with the names of their fields, as the schema says. -/
def structFields (scope : Bytes) : MsgD → List (Bytes × List Bytes)
  | .mk name _ fs _ ms => structFieldsAll (qualify scope name) ms ++ [(camelCase (qualify scope name), fs.map fun f => snakeBytes f.name)]
def structFieldsAll (scope : Bytes) : List MsgD → List (Bytes × List Bytes)
  | [] => []
  | .mk name e fs es ms :: rest => (if e then [] else structFields scope (.mk name e fs es ms)) ++ structFieldsAll scope rest
end

def asIdents (p : Bytes × List Bytes) : Ident × List Ident := (ofBytes p.1, p.2.map ofBytes)

theorem structs_struct (privacy : Bytes) : ∀ m s, (structItems privacy s m).flatMap Item.structs = (structFields s m).map asIdents := by
  intro m
  induction m using MsgD.rec (motive_2 := fun ms => ∀ s, (structItemsAll privacy s ms).flatMap Item.structs = (structFieldsAll s ms).map asIdents) with
  | mk n e fs es ms ih =>
    intro s
    rw [structItems, structFields]
    simp only [List.flatMap_append, List.map_append, ih]
    simp [Item.structs, encodeImpl, decodeImpl, asIdents, camel, snake]
  | nil => rename_i s; simp [structItemsAll, structFieldsAll]
  | cons m ms ihm ih =>
    rename_i s
    obtain ⟨n, e, fs, es, mm⟩ := m
    rw [structItemsAll, structFieldsAll]
    cases e with
    | true => simpa using ih s
    | false => simp [ihm s, ih s]

theorem structs_program (privacy : Bytes) (d : Package.Rust.Dependencies) (f : FileD) :
    (program privacy d f).flatMap Item.structs = (f.messages.flatMap (structFields f.package)).map asIdents := by
  have he : ∀ (s : Bytes) (es : List EnumD), (es.map (enumItem s)).flatMap Item.structs = [] := by
    intro s es
    induction es with
    | nil => rfl
    | cons e es ih => simp only [List.map_cons, List.flatMap_cons, ih]; rfl
  have hm : ∀ m s, (messageItems privacy s m).flatMap Item.structs = (structFields s m).map asIdents := by
    intro m s
    obtain ⟨n, e, fs, es, ms⟩ := m
    rw [messageItems, List.flatMap_append, structs_struct, he]
    rfl
  have hi : (importItems d).flatMap Item.structs = [] := by
    obtain ⟨a, b⟩ := d
    cases a <;> cases b <;> rfl
  rw [program]
  simp only [List.flatMap_append, hi, he, List.flatMap_assoc, hm, List.map_flatMap]
  rfl

end RustText
