import Verif.Text.GoRun
import Verif.Text.GoDeclared
import Verif.Gen.Values

/-!
# The declarations of the generated program

The message types of a file as a schema (`Gen.Schema`), and what looking a name up in the generated program finds.
-/

namespace GoText

open Utils Text GoAst GoRun
open Gen (PKind Field Schema)
open Package (EnumD qualify)

variable {lib : Lib}

/-! ## The schema of a file -/

mutual
/-- The message types in a message: full name and fields; entry messages of maps are left out. -/
def MsgD.types (scope : Bytes) : MsgD → List (Bytes × List FieldD)
  | .mk name _ fs _ ms => typesAll (qualify scope name) ms ++ [(qualify scope name, fs)]
def typesAll (scope : Bytes) : List MsgD → List (Bytes × List FieldD)
  | [] => []
  | .mk name e fs es ms :: rest => (if e then [] else MsgD.types scope (.mk name e fs es ms)) ++ typesAll scope rest
end

/-- The message types of a file. -/
def FileD.types (f : FileD) : List (Bytes × List FieldD) := f.messages.flatMap (MsgD.types f.package)

/-- The enum types that the generator declares: those of the file and those of its outer messages; scope and enum. -/
def FileD.enumTypes (f : FileD) : List (Bytes × EnumD) :=
  f.enums.map (fun e => (f.package, e)) ++ f.messages.flatMap fun (.mk n _ _ es _) => es.map fun e => (qualify f.package n, e)

/-- The full names of these. -/
def FileD.enumNames (f : FileD) : List Bytes := f.enumTypes.map fun e => qualify e.1 e.2.name

/-- The number of a type. -/
def FileD.ref (f : FileD) (k : PKind) (type : Bytes) : Nat :=
  if k = .enum then f.enumNames.idxOf type else (f.types.map (·.1)).idxOf type

/-- A field with the numbers of types instead of names. -/
def FieldD.toField (f : FileD) (g : FieldD) : Field :=
  match g.shape with
  | .one r => .one g.kind (f.ref g.kind g.type) r
  | .many => .many g.kind (f.ref g.kind g.type)
  | .map kk => .map kk g.kind (f.ref g.kind g.type)

/-- The schema of a file. -/
def FileD.schema (f : FileD) : Schema := ⟨f.types.map fun t => t.2.map (FieldD.toField f), f.enumTypes.map fun e => e.2.values.length⟩

/-- Every type that a field refers to is one that the generator declares for this file. -/
def FileD.Closed (f : FileD) : Prop :=
  ∀ t ∈ f.types, ∀ g ∈ t.2, (g.kind = .message → g.type ∈ f.types.map (·.1)) ∧ (g.kind = .enum → g.type ∈ f.enumNames)

/-! ## Units -/

/-- What the generator prints at once. -/
inductive Unit where
  | enum (scope : Bytes) (e : EnumD)
  | map (owner : Bytes) (g : FieldD) (key : PKind)
  | msg (full : Bytes) (fs : List FieldD)

/-- The declarations of a message without its maps. -/
def msgDecls [Lib] (full : Bytes) (fs : List FieldD) : List Decl :=
  [.struct (camel full) (fs.map fun g => (camel g.name, fieldTy full g)),
   newFunc (camel full) (newElements fs), errorFunc (camel full), encodeDecl full fs, decodeApi (camel full), decodeDecl full fs]

def Unit.decls [Lib] : Unit → List Decl
  | .enum s e => enumDecls s e
  | .map o g kk => mapDecls (mapName o g) (scalarTy kk) (elemTy g.kind (camel g.type)) ++
      [encodeMapFunc (mapName o g) kk g.kind, decodeMapFunc (mapName o g) kk g.kind (camel g.type)]
  | .msg n fs => msgDecls n fs

/-- The type that a unit declares. -/
def Unit.key : Unit → Ident
  | .enum s e => camel (qualify s e.name)
  | .map o g _ => mapName o g
  | .msg n _ => camel n

def mapUnits (owner : Bytes) (g : FieldD) : List Unit :=
  match g.shape with
  | .map kk => [.map owner g kk]
  | _ => []

/-- The units of a message type. -/
def typeUnits (t : Bytes × List FieldD) : List Unit := t.2.flatMap (mapUnits t.1) ++ [.msg t.1 t.2]

def FileD.units (f : FileD) : List Unit :=
  f.enums.map (.enum f.package) ++ f.messages.flatMap fun m =>
    (match m with | .mk n _ _ es _ => es.map (.enum (qualify f.package n))) ++ (m.types f.package).flatMap typeUnits

theorem mapUnits_decls (o : Bytes) (g : FieldD) : (mapUnits o g).flatMap Unit.decls = mapFieldDecls o g := by
  obtain ⟨n, s, k, t⟩ := g
  cases s <;> simp [mapUnits, mapFieldDecls, Unit.decls]

theorem typeUnits_decls (t : Bytes × List FieldD) : (typeUnits t).flatMap Unit.decls = t.2.flatMap (mapFieldDecls t.1) ++ msgDecls t.1 t.2 := by
  simp [typeUnits, List.flatMap_assoc, mapUnits_decls, Unit.decls]

theorem structDecls_types : ∀ m s, structDecls s m = ((m.types s).flatMap typeUnits).flatMap Unit.decls := by
  intro m
  induction m using MsgD.rec (motive_2 := fun ms => ∀ s, structDeclsAll s ms = ((typesAll s ms).flatMap typeUnits).flatMap Unit.decls) with
  | mk n e fs es ms ih =>
    intro s
    rw [structDecls, MsgD.types, ih]
    simp [List.flatMap_append, typeUnits_decls, msgDecls]
  | nil => rename_i s; simp [structDeclsAll, typesAll]
  | cons m ms ihm ih =>
    rename_i s
    obtain ⟨n, e, fs, es, mm⟩ := m
    rw [structDeclsAll, typesAll]
    cases e with
    | true => simpa using ih s
    | false => simp [ihm s, ih s]

/-- The declarations before the units. -/
def headDecls [Lib] (f : FileD) : List Decl := [.package (ofBytes (packageName f)), .imports (RequiredImports.map ofBytes), errorsDecl]

theorem program_units (f : FileD) : program f = headDecls f ++ f.units.flatMap Unit.decls := by
  have hm : ∀ m s, messageDecls s m = ((match m with | .mk n _ _ es _ => es.map (Unit.enum (qualify s n))) ++ (m.types s).flatMap typeUnits).flatMap Unit.decls := by
    intro m s
    obtain ⟨n, e, fs, es, ms⟩ := m
    rw [messageDecls, structDecls_types, List.flatMap_append, List.flatMap_map]
    rfl
  have hm' := funext fun m => hm m f.package
  rw [program, FileD.units, headDecls, hm']
  simp only [List.flatMap_append, List.flatMap_map, List.flatMap_assoc, List.append_assoc]
  rfl

theorem mem_units_type {f : FileD} {t : Bytes × List FieldD} (h : t ∈ f.types) : ∀ u ∈ typeUnits t, u ∈ f.units := by
  intro u hu
  obtain ⟨m, hm, ht⟩ := List.mem_flatMap.mp h
  refine List.mem_append_right _ (List.mem_flatMap.mpr ⟨m, hm, List.mem_append_right _ (List.mem_flatMap.mpr ⟨t, ht, hu⟩)⟩)

theorem mem_units_enum {f : FileD} {e : Bytes × EnumD} (h : e ∈ f.enumTypes) : Unit.enum e.1 e.2 ∈ f.units := by
  rcases List.mem_append.mp h with h | h
  · obtain ⟨x, hx, rfl⟩ := List.mem_map.mp h
    exact List.mem_append_left _ (List.mem_map.mpr ⟨x, hx, rfl⟩)
  · obtain ⟨m, hm, he⟩ := List.mem_flatMap.mp h
    obtain ⟨n, b, fs, es, ms⟩ := m
    obtain ⟨x, hx, rfl⟩ := List.mem_map.mp he
    refine List.mem_append_right _ (List.mem_flatMap.mpr ⟨_, hm, List.mem_append_left _ (List.mem_map.mpr ⟨x, hx, rfl⟩)⟩)

/-! ## Uniqueness -/

theorem unique_of_nodup {α β : Type} {l : List α} {g : α → List β} (h : (l.flatMap g).Nodup) {a b : α} {x : β} (ha : a ∈ l) (hb : b ∈ l)
    (hxa : x ∈ g a) (hxb : x ∈ g b) : a = b := by
  induction l with
  | nil => cases ha
  | cons c l ih =>
    rw [List.flatMap_cons, List.nodup_append] at h
    rcases List.mem_cons.mp ha with ha | ha <;> rcases List.mem_cons.mp hb with hb | hb
    · rw [ha, hb]
    · exact absurd rfl (h.2.2 x (ha ▸ hxa) x (List.mem_flatMap.mpr ⟨b, hb, hxb⟩))
    · exact absurd rfl (h.2.2 x (hb ▸ hxb) x (List.mem_flatMap.mpr ⟨a, ha, hxa⟩))
    · exact ih h.2.1 ha hb

theorem findSome?_unique {α β : Type} {l : List α} {g : α → Option β} {a : α} {x : β} (ha : a ∈ l) (hg : g a = some x)
    (hu : ∀ b ∈ l, ∀ y, g b = some y → y = x) : l.findSome? g = some x := by
  cases h : l.findSome? g with
  | none => rw [List.findSome?_eq_none_iff] at h; rw [h a ha] at hg; cases hg
  | some y =>
    obtain ⟨b, hb, hy⟩ := List.exists_of_findSome?_eq_some h
    rw [hu b hb y hy]

/-- No name is declared twice. -/
def Distinct (P : List Decl) : Prop := (P.flatMap Decl.declared).Nodup

section
variable {P : List Decl} (hP : Distinct P)
include hP

theorem findStruct_eq {n : Ident} {fs : List (Ident × Ty)} (h : .struct n fs ∈ P) : findStruct P n = some fs := by
  refine findSome?_unique h (by simp) ?_
  intro b hb y hy
  split at hy
  · rename_i m gs
    by_cases hm : m = n
    · subst hm
      simp at hy
      have := unique_of_nodup hP (x := m) h hb (by simp [Decl.declared]) (by simp [Decl.declared])
      cases this; exact hy.symm
    · simp [hm] at hy
  · cases hy

theorem findType_eq {n : Ident} {t : Ty} (h : .type n t ∈ P) : findType P n = some t := by
  refine findSome?_unique h (by simp) ?_
  intro b hb y hy
  split at hy
  · rename_i m gs
    by_cases hm : m = n
    · subst hm
      simp at hy
      have := unique_of_nodup hP (x := m) h hb (by simp [Decl.declared]) (by simp [Decl.declared])
      cases this; exact hy.symm
    · simp [hm] at hy
  · cases hy

theorem findFunc_eq {n : Ident} {ps : List (Ident × Ty)} {r : Option Ty} {b : Stmt} (h : .func none n ps r b ∈ P) :
    findFunc P n = some ⟨none, ps, r, b⟩ := by
  refine findSome?_unique h (by simp) ?_
  intro b hb y hy
  split at hy
  · rename_i m qs r' b'
    by_cases hm : m = n
    · subst hm
      simp at hy
      have := unique_of_nodup hP (x := m) h hb (by simp [Decl.declared]) (by simp [Decl.declared])
      cases this; exact hy.symm
    · simp [hm] at hy
  · cases hy

theorem findFunc_type {n : Ident} {t : Ty} (h : .type n t ∈ P) : findFunc P n = none := by
  rw [findFunc, List.findSome?_eq_none_iff]
  intro b hb
  split
  · rename_i m qs r' b'
    by_cases hm : m = n
    · subst hm
      have := unique_of_nodup hP (x := m) h hb (by simp [Decl.declared]) (by simp [Decl.declared])
      cases this
    · simp [hm]
  · rfl

end

theorem findFunc_none {P : List Decl} {n : Ident} (h : n ∉ P.flatMap Decl.declared) : findFunc P n = none := by
  rw [findFunc, List.findSome?_eq_none_iff]
  intro b hb
  split
  · rename_i m qs r' b'
    by_cases hm : m = n
    · subst hm
      exact absurd (List.mem_flatMap.mpr ⟨_, hb, by simp [Decl.declared]⟩) h
    · simp [hm]
  · rfl

theorem findType_none {P : List Decl} {n : Ident} (h : n ∉ P.flatMap Decl.declared) : findType P n = none := by
  rw [findType, List.findSome?_eq_none_iff]
  intro b hb
  split
  · rename_i m qs
    by_cases hm : m = n
    · subst hm
      exact absurd (List.mem_flatMap.mpr ⟨_, hb, by simp [Decl.declared]⟩) h
    · simp [hm]
  · rfl

theorem findErr_none {P : List Decl} {n : Ident} (h : n ∉ P.flatMap Decl.declared) : findErr P n = false := by
  rw [findErr, List.any_eq_false]
  intro b hb
  split
  · rename_i ds
    rw [Bool.not_eq_true, List.any_eq_false]
    intro d hd
    by_cases hm : d.1 = n
    · subst hm
      exact absurd (List.mem_flatMap.mpr ⟨_, hb, by simp only [Decl.declared]; exact List.mem_map.mpr ⟨d, hd, rfl⟩⟩) h
    · simp [hm]
  · simp

/-! ## Methods -/

/-- A method. -/
def Method (d : Decl) (t m : Ident) : Prop := ∃ x u ps r b, d = .func (some (x, u)) m ps r b ∧ base u = some t

theorem unit_methods {u : Unit} {d : Decl} (hd : d ∈ u.decls) {t m : Ident} (h : Method d t m) : t = u.key := by
  obtain ⟨x, v, ps, r, b, rfl, hb⟩ := h
  cases u with
  | enum s e => simp [Unit.decls, enumDecls] at hd
  | map o g kk =>
    simp only [Unit.decls, mapDecls, encodeMapFunc, decodeMapFunc, List.mem_append, List.mem_cons, List.not_mem_nil, or_false, reduceCtorEq, Decl.func.injEq,
      false_and, false_or, Option.some.injEq, Prod.mk.injEq] at hd
    rcases hd with ⟨⟨_, rfl⟩, _⟩ | ⟨⟨_, rfl⟩, _⟩ <;> (simp only [base, Option.some.injEq] at hb; exact hb.symm)
  | msg n fs =>
    simp only [Unit.decls, msgDecls, newFunc, errorFunc, encodeDecl, encodeFunc, decodeApi, decodeDecl, decodeFunc, List.mem_cons, List.not_mem_nil, or_false,
      reduceCtorEq, Decl.func.injEq, false_and, false_or, Option.some.injEq, Prod.mk.injEq] at hd
    rcases hd with ⟨⟨_, rfl⟩, _⟩ | ⟨⟨_, rfl⟩, _⟩ | ⟨⟨_, rfl⟩, _⟩ | ⟨⟨_, rfl⟩, _⟩ <;> (simp only [base, Option.some.injEq] at hb; exact hb.symm)

theorem unit_key (u : Unit) : ∃ d ∈ u.decls, u.key ∈ d.declared := by
  cases u with
  | enum s e => exact ⟨_, List.mem_cons_self .., by simp [Decl.declared, Unit.key]⟩
  | map o g kk => exact ⟨_, List.mem_cons_self .., by simp [Decl.declared, Unit.key]⟩
  | msg n fs => exact ⟨_, List.mem_cons_self .., by simp [Decl.declared, Unit.key]⟩

/-- The method of a unit is found, if the unit has only one of the name. -/
theorem findMethod_eq {f : FileD} (hP : Distinct (program f)) {u : Unit} (hu : u ∈ f.units) {x : Ident} {v : Ty} {m : Ident} {ps : List (Ident × Ty)}
    {r : Option Ty} {b : Stmt} (h : .func (some (x, v)) m ps r b ∈ u.decls) (hv : base v = some u.key)
    (ho : ∀ x' v' ps' r' b', .func (some (x', v')) m ps' r' b' ∈ u.decls → x' = x ∧ v' = v ∧ ps' = ps ∧ r' = r ∧ b' = b) :
    findMethod (program f) u.key m = some ⟨some (x, v), ps, r, b⟩ := by
  have hsplit := program_units (lib := lib) f
  have hmem : ∀ w ∈ f.units, ∀ d ∈ w.decls, d ∈ program f := by
    intro w hw d hd
    rw [hsplit]
    exact List.mem_append_right _ (List.mem_flatMap.mpr ⟨w, hw, hd⟩)
  refine findSome?_unique (hmem u hu _ h) (by simp [hv]) ?_
  intro d hd y hy
  split at hy
  · rename_i x' v' n' ps' r' b'
    by_cases hc : base v' = some u.key ∧ n' = m
    · obtain ⟨hc1, rfl⟩ := hc
      rw [hsplit] at hd
      rcases List.mem_append.mp hd with hd | hd
      · simp [headDecls, errorsDecl] at hd
      · obtain ⟨w, hw, hdw⟩ := List.mem_flatMap.mp hd
        have hk : u.key = w.key := unit_methods hdw ⟨_, _, _, _, _, rfl, hc1⟩
        have huw : w = u := by
          have hn : (f.units.flatMap fun w => w.decls.flatMap Decl.declared).Nodup := by
            have := hP
            rw [Distinct, hsplit, List.flatMap_append, List.nodup_append, List.flatMap_assoc] at this
            exact this.2.1
          obtain ⟨d1, h1, h2⟩ := unit_key u
          obtain ⟨d2, h3, h4⟩ := unit_key w
          exact unique_of_nodup hn hw hu (x := u.key) (List.mem_flatMap.mpr ⟨d2, h3, hk ▸ h4⟩) (List.mem_flatMap.mpr ⟨d1, h1, h2⟩)
        subst huw
        obtain ⟨rfl, rfl, rfl, rfl, rfl⟩ := ho _ _ _ _ _ hdw
        simp [hc1] at hy
        exact hy.symm
    · simp [hc] at hy
  · cases hy

end GoText
