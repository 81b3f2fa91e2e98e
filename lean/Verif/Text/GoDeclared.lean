import Verif.Text.GoNames

/-!
# The names that the generated program declares

The program of `GoProgram.lean` declares the names that `Package.Go.decls` lists.
-/

namespace GoText

open Utils Tmpl Text GoAst
open Gen (PKind)
open Package (EnumD qualify)

variable {lib : Lib}

/-- The package-level names that a Go declaration introduces (a method introduces none). -/
def _root_.GoAst.Decl.declared : Decl → List Ident
  | .package _ => []
  | .imports _ => []
  | .type n _ => [n]
  | .struct n _ => [n]
  | .vars ds => ds.map (·.1)
  | .consts ds => ds.map (·.1)
  | .func none n _ _ _ => [n]
  | .func (some _) _ _ _ _ => []

/-- What the model of names (`Package.lean`) knows about a field. -/
def FieldD.erase (f : FieldD) : Package.FieldD :=
  ⟨f.name, match f.shape with | .one _ => .one | .many => .many | .map _ => .map,
    match f.kind with | .message => .message f.type | .enum => .enum f.type | _ => .scalar⟩

mutual
/-- The same for a message; entry messages of maps are left out. -/
def MsgD.erase : MsgD → Package.MsgD
  | .mk name _ fs es ms => .mk name (fs.map FieldD.erase) es (eraseAll ms)
def eraseAll : List MsgD → List Package.MsgD
  | [] => []
  | .mk n e fs es ms :: rest => if e then eraseAll rest else MsgD.erase (.mk n e fs es ms) :: eraseAll rest
end

/-- The same for a file; there is no map entry at the top level. -/
def FileD.erase (f : FileD) : Package.FileD := ⟨f.package, f.enums, f.messages.map MsgD.erase⟩

theorem ofBytes_append (a b : Bytes) : ofBytes (a ++ b) = ofBytes a ++ ofBytes b := by simp [ofBytes]

theorem declared_enum (s : Bytes) (e : EnumD) : (enumDecls s e).flatMap Decl.declared = (Package.Go.enumDecls s e).map ofBytes := by
  simp [enumDecls, Decl.declared, Package.Go.enumDecls, camel]
  refine List.ext_getElem (by simp) fun i h1 h2 => by simp

theorem declared_map (o : Bytes) (f : FieldD) : (mapFieldDecls o f).flatMap Decl.declared = (Package.Go.mapDecls o f.erase).map ofBytes := by
  obtain ⟨n, s, k, t⟩ := f
  cases s with
  | one r => rfl
  | many => rfl
  | map kk =>
    simp only [mapFieldDecls, mapDecls, encodeMapFunc, decodeMapFunc, Package.Go.mapDecls, FieldD.erase, mapName, camel, if_true, List.map_cons, List.map_nil,
      ofBytes_append]
    rfl

theorem declared_struct : (∀ m s, (structDecls s m).flatMap Decl.declared = (Package.Go.structDecls s m.erase).map ofBytes) := by
  intro m
  induction m using MsgD.rec (motive_2 := fun ms => ∀ s, (structDeclsAll s ms).flatMap Decl.declared = (Package.Go.structDeclsAll s (eraseAll ms)).map ofBytes) with
  | mk n e fs es ms ih =>
    intro s
    rw [structDecls, MsgD.erase, Package.Go.structDecls]
    simp only [List.flatMap_append, List.map_append, ih, List.flatMap_assoc, declared_map, List.map_flatMap, List.flatMap_map]
    congr 1
  | nil => rename_i s; simp [structDeclsAll, eraseAll, Package.Go.structDeclsAll]
  | cons m ms ihm ih =>
    rename_i s
    obtain ⟨n, e, fs, es, mm⟩ := m
    rw [structDeclsAll, eraseAll]
    cases e with
    | true => simpa using ih s
    | false => simp [Package.Go.structDeclsAll, ihm s, ih s]

/-- The names declared by the file: those that the model of names lists, except that v1 calls the variable of errors.templ differently. -/
theorem declared_program (f : FileD) : (program f).flatMap Decl.declared = errNil :: (Package.Go.decls f.erase).tail.map ofBytes := by
  have hm : ∀ m s, (messageDecls s m).flatMap Decl.declared = (Package.Go.messageDecls s m.erase).map ofBytes := by
    intro m s
    obtain ⟨n, e, fs, es, ms⟩ := m
    rw [messageDecls, List.flatMap_append, declared_struct, Package.Go.messageDecls, MsgD.erase]
    simp only [List.map_append, List.flatMap_assoc, declared_enum, List.map_flatMap]
    rfl
  rw [program, Package.Go.decls]
  simp only [List.flatMap_append, List.flatMap_assoc, declared_enum, hm, FileD.erase, List.flatMap_map, List.tail_cons]
  simp [Decl.declared, errorsDecl, List.map_flatMap]

end GoText
