import Verif.Text.GoLink

/-!
# Looking names up in the generated program
-/

namespace GoText

open Utils Text GoAst GoRun
open Gen (PKind Field Schema)
open Package (EnumD qualify)

variable {lib : Lib}

/-- What the generated code needs to compile and to do its work (apart from the types of the lines, see `Field.GoSupported`). -/
structure FileD.Plain [Lib] (f : FileD) : Prop where
  wf : f.Wf
  closed : f.Closed
  /-- no two declarations have the same Go name -/
  distinct : Distinct (program f)
  /-- no two fields of a message have the same Go name -/
  fields : ∀ t ∈ f.types, (t.2.map fun g => camel g.name).Nodup
  supported : f.schema.GoSupported

/-- The names of declarations that the statements that decode a field refer to: the type of an enum, the constructors of messages and
maps, and the type of the elements of a new slice of messages. -/
def FieldD.mentions (owner : Bytes) (g : FieldD) : List Ident :=
  match g.shape with
  | .one _ => if g.kind = .enum then [camel g.type] else if g.kind = .message then [go!"New" ++ camel g.type] else []
  | .many => if g.kind = .message then [camel g.type, go!"New" ++ camel g.type] else []
  | .map _ => [go!"New" ++ mapName owner g]

/-- The order in which decoders read the fields: values, then repeated fields, then messages and maps. -/
def decodingOrder (fs : List FieldD) : List FieldD := fs.filter FieldD.isValue ++ (fs.filter FieldD.isSlice ++ fs.filter FieldD.isMessage)

/-- The variables in which decoders read the numbers of enums hide nothing that is needed afterwards. -/
structure FileD.Unhidden (f : FileD) : Prop where
  /-- the variable of a singular enum field, from its declaration to the end of `decode` -/
  temp : ∀ t ∈ f.types, ∀ before g after, decodingOrder t.2 = before ++ g :: after → g.kind = .enum → ∀ r, g.shape = .one r →
    ∀ g' ∈ g :: after, camel g.name ++ go!"Temp" ∉ g'.mentions t.1
  /-- the variable for the values of a map -/
  valueTemp : ∀ t ∈ f.types, ∀ g ∈ t.2, g.kind = .enum → ∀ kk, g.shape = .map kk → camel g.type ≠ go!"ValueTemp"

/-! ## Well-formed types -/

structure TypeWf (t : Bytes × List FieldD) : Prop where
  name : IsDotted t.1
  fields : ∀ g ∈ t.2, g.Wf

theorem typeWf_msg : ∀ m : MsgD, m.Wf → ∀ s, (s = [] ∨ IsDotted s) → ∀ t ∈ m.types s, TypeWf t := by
  intro m
  induction m using MsgD.rec (motive_2 := fun ms => (∀ m ∈ ms, m.Wf) → ∀ s, (s = [] ∨ IsDotted s) → ∀ t ∈ typesAll s ms, TypeWf t) with
  | mk n e fs es ms ih =>
    intro h s hs t ht
    cases h with
    | mk hn hf he hm =>
      have hq := IsDotted.qualify hs hn
      rw [MsgD.types] at ht
      rcases List.mem_append.mp ht with ht | ht
      · exact ih hm _ (.inr hq) t ht
      · rw [List.mem_singleton] at ht; subst ht; exact ⟨hq, hf⟩
  | nil => rename_i s _ t ht; simp [typesAll] at ht
  | cons m ms ihm ih =>
    rename_i h s hs t ht
    obtain ⟨n, e, fs, es, mm⟩ := m
    rw [typesAll] at ht
    rcases List.mem_append.mp ht with ht | ht
    · cases e with
      | true => simp at ht
      | false => exact ihm (h _ (List.mem_cons_self ..)) s hs t (by simpa using ht)
    · exact ih (fun m hm => h m (List.mem_cons_of_mem _ hm)) s hs t ht

theorem FileD.Wf.typeWf {f : FileD} (h : f.Wf) {t : Bytes × List FieldD} (ht : t ∈ f.types) : TypeWf t := by
  obtain ⟨m, hm, ht⟩ := List.mem_flatMap.mp ht
  exact typeWf_msg m (h.messages m hm) _ h.package t ht

theorem FileD.Wf.enumWf {f : FileD} (h : f.Wf) {e : Bytes × EnumD} (he : e ∈ f.enumTypes) : (e.1 = [] ∨ IsDotted e.1) ∧ EnumWf e.2 := by
  rcases List.mem_append.mp he with he | he
  · obtain ⟨x, hx, rfl⟩ := List.mem_map.mp he
    exact ⟨h.package, h.enums x hx⟩
  · obtain ⟨m, hm, he⟩ := List.mem_flatMap.mp he
    have hw := h.messages m hm
    obtain ⟨n, b, fs, es, ms⟩ := m
    obtain ⟨x, hx, rfl⟩ := List.mem_map.mp he
    cases hw with
    | mk hn _ hes _ => exact ⟨.inr (.qualify h.package hn), hes x hx⟩

/-- The name starts with an upper-case letter. -/
def Upper (n : Ident) : Prop := ∃ b r, n = .byte b :: r ∧ isUpper b = true

theorem upper_camel {s : Bytes} (h : IsDotted s) : Upper (camel s) := by
  obtain ⟨c, cs, rfl, hc⟩ := h.head
  obtain ⟨out, ho⟩ := Package.camelCase_cons cs hc
  exact ⟨toUpper c, ofBytes out, by rw [camel, ho]; rfl, toUpper_upper c hc⟩

theorem Upper.append {n : Ident} (h : Upper n) (m : Ident) : Upper (n ++ m) := by
  obtain ⟨b, r, rfl, hb⟩ := h
  exact ⟨b, r ++ m, rfl, hb⟩

theorem upper_new (m : Ident) : Upper (go!"New" ++ m) := ⟨_, _, rfl, by decide⟩

theorem mentions_upper {f : FileD} (h : f.Wf) {t : Bytes × List FieldD} (ht : t ∈ f.types) {g : FieldD} (hg : g ∈ t.2) : ∀ n ∈ g.mentions t.1, Upper n := by
  intro n hn
  have hw := ((h.typeWf ht).fields g hg).type
  unfold FieldD.mentions at hn
  split at hn
  · split at hn
    · rename_i he; rw [List.mem_singleton] at hn; subst hn; exact upper_camel (hw (.inr he))
    · split at hn
      · rw [List.mem_singleton] at hn; subst hn; exact upper_new _
      · cases hn
  · split at hn
    · rename_i he
      simp only [List.mem_cons, List.not_mem_nil, or_false] at hn
      rcases hn with rfl | rfl
      · exact upper_camel (hw (.inl he))
      · exact upper_new _
    · cases hn
  · rw [List.mem_singleton] at hn; subst hn; exact upper_new _

/-- The names that are still needed when some of the fields, of those with `p`, and then others are to be decoded. -/
def needs (owner : Bytes) (p : FieldD → Bool) (fs rest : List FieldD) : List Ident := (fs.filter p ++ rest).flatMap (FieldD.mentions owner)

theorem needs_skip {owner : Bytes} {p : FieldD → Bool} {g : FieldD} (h : p g = false) (fs rest : List FieldD) : needs owner p (g :: fs) rest = needs owner p fs rest := by
  rw [needs, List.filter_cons_of_neg (by simp [h])]; rfl

theorem needs_next {owner : Bytes} {p : FieldD → Bool} {g : FieldD} (fs rest : List FieldD) {n : Ident} (hn : n ∈ needs owner p fs rest) : n ∈ needs owner p (g :: fs) rest := by
  unfold needs at hn ⊢
  rw [List.filter_cons]
  split
  · exact List.mem_append_right _ hn
  · exact hn

theorem needs_self {owner : Bytes} {p : FieldD → Bool} {g : FieldD} (h : p g = true) (fs rest : List FieldD) {n : Ident} (hn : n ∈ g.mentions owner) :
    n ∈ needs owner p (g :: fs) rest := by
  rw [needs, List.filter_cons_of_pos h]
  exact List.mem_append_left _ hn

theorem needs_rest {owner : Bytes} {p : FieldD → Bool} {fs rest : List FieldD} {n : Ident} (hn : n ∈ rest.flatMap (FieldD.mentions owner)) : n ∈ needs owner p fs rest := by
  rw [needs, List.flatMap_append]
  exact List.mem_append_right _ hn

theorem needs_upper {f : FileD} (h : f.Wf) {t : Bytes × List FieldD} (ht : t ∈ f.types) {p : FieldD → Bool} {fs rest : List FieldD} (hf : ∀ g ∈ fs, g ∈ t.2) (hr : ∀ g ∈ rest, g ∈ t.2) :
    ∀ n ∈ needs t.1 p fs rest, Upper n := by
  intro n hn
  obtain ⟨g, hg, hn⟩ := List.mem_flatMap.mp hn
  refine mentions_upper h ht ?_ n hn
  rcases List.mem_append.mp hg with hg | hg
  · exact hf g (List.mem_filter.mp hg).1
  · exact hr g hg

/-- What is decoded after the values. -/
def afterValues (fs : List FieldD) : List FieldD := fs.filter FieldD.isSlice ++ fs.filter FieldD.isMessage

theorem afterValues_mem {fs : List FieldD} : ∀ g ∈ afterValues fs, g ∈ fs := by
  intro g hg
  rcases List.mem_append.mp hg with hg | hg <;> exact (List.mem_filter.mp hg).1

theorem FileD.Unhidden.free {f : FileD} (hu : f.Unhidden) {t : Bytes × List FieldD} (ht : t ∈ f.types) {pre post : List FieldD} {g : FieldD} (hp : t.2 = pre ++ g :: post)
    (hv : g.isValue = true) (he : g.kind = .enum) : camel g.name ++ go!"Temp" ∉ needs t.1 FieldD.isValue (g :: post) (afterValues t.2) := by
  obtain ⟨r, hs⟩ : ∃ r, g.shape = .one r := by cases hsh : g.shape <;> simp [FieldD.isValue, hsh] at hv ⊢
  have ho : decodingOrder t.2 = pre.filter FieldD.isValue ++ g :: (post.filter FieldD.isValue ++ afterValues t.2) := by
    have : t.2.filter FieldD.isValue = pre.filter FieldD.isValue ++ g :: post.filter FieldD.isValue := by
      rw [hp, List.filter_append, List.filter_cons_of_pos hv]
    rw [decodingOrder, this, afterValues]
    simp
  intro hn
  obtain ⟨g', hg', hn⟩ := List.mem_flatMap.mp hn
  rw [List.filter_cons_of_pos hv] at hg'
  exact hu.temp t ht _ g _ ho he r hs g' (by simpa using hg') hn

theorem units_mem {f : FileD} {u : Unit} (h : u ∈ f.units) :
    (∃ e ∈ f.enumTypes, u = .enum e.1 e.2) ∨ (∃ t ∈ f.types, u = .msg t.1 t.2 ∨ ∃ g ∈ t.2, ∃ kk, g.shape = .map kk ∧ u = .map t.1 g kk) := by
  rcases List.mem_append.mp h with h | h
  · obtain ⟨x, hx, rfl⟩ := List.mem_map.mp h
    exact .inl ⟨_, List.mem_append_left _ (List.mem_map.mpr ⟨x, hx, rfl⟩), rfl⟩
  · obtain ⟨m, hm, hu⟩ := List.mem_flatMap.mp h
    rcases List.mem_append.mp hu with hu | hu
    · obtain ⟨n, b, fs, es, ms⟩ := m
      obtain ⟨x, hx, rfl⟩ := List.mem_map.mp hu
      exact .inl ⟨_, List.mem_append_right _ (List.mem_flatMap.mpr ⟨_, hm, List.mem_map.mpr ⟨x, hx, rfl⟩⟩), rfl⟩
    · obtain ⟨t, ht, hu⟩ := List.mem_flatMap.mp hu
      have ht' : t ∈ f.types := List.mem_flatMap.mpr ⟨m, hm, ht⟩
      rcases List.mem_append.mp hu with hu | hu
      · obtain ⟨g, hg, hu⟩ := List.mem_flatMap.mp hu
        refine .inr ⟨t, ht', .inr ⟨g, hg, ?_⟩⟩
        unfold mapUnits at hu
        split at hu
        · rename_i kk hs
          rw [List.mem_singleton] at hu
          exact ⟨kk, hs, hu⟩
        · cases hu
      · rw [List.mem_singleton] at hu
        exact .inr ⟨t, ht', .inl hu⟩

theorem declared_upper {f : FileD} (h : f.Wf) : ∀ n ∈ (program f).flatMap Decl.declared, Upper n := by
  intro n hn
  obtain ⟨d, hd, hn⟩ := List.mem_flatMap.mp hn
  rw [program_units] at hd
  rcases List.mem_append.mp hd with hd | hd
  · simp only [headDecls, errorsDecl, List.mem_cons, List.not_mem_nil, or_false] at hd
    rcases hd with rfl | rfl | rfl <;> simp only [Decl.declared, List.not_mem_nil, List.map_cons, List.map_nil, List.mem_singleton] at hn
    subst hn
    cases lib <;> exact ⟨_, _, rfl, by decide⟩
  · obtain ⟨u, hu, hd⟩ := List.mem_flatMap.mp hd
    rcases units_mem hu with ⟨e, he, rfl⟩ | ⟨t, ht, rfl | ⟨g, hg, kk, hs, rfl⟩⟩
    · obtain ⟨h1, h2, h3⟩ := h.enumWf he
      simp only [Unit.decls, enumDecls, List.mem_cons, List.not_mem_nil, or_false] at hd
      rcases hd with rfl | rfl
      · simp only [Decl.declared, List.mem_singleton] at hn
        subst hn
        exact upper_camel (.qualify h1 h2)
      · simp only [Decl.declared, List.mem_map, List.mem_mapIdx] at hn
        obtain ⟨_, ⟨i, hi, rfl⟩, rfl⟩ := hn
        exact upper_camel (.qualify h1 (h3 _ (List.getElem_mem hi)))
    · have hw := h.typeWf ht
      simp only [Unit.decls, msgDecls, newFunc, errorFunc, encodeDecl, encodeFunc, decodeApi, decodeDecl, decodeFunc, List.mem_cons, List.not_mem_nil, or_false] at hd
      rcases hd with rfl | rfl | rfl | rfl | rfl | rfl <;> simp only [Decl.declared, List.mem_singleton, List.not_mem_nil] at hn
      · subst hn; exact upper_camel hw.name
      · subst hn; exact upper_new _
    · have hw := h.typeWf ht
      simp only [Unit.decls, mapDecls, encodeMapFunc, decodeMapFunc, List.mem_append, List.mem_cons, List.not_mem_nil, or_false] at hd
      rcases hd with (rfl | rfl) | rfl | rfl <;> simp only [Decl.declared, List.mem_singleton, List.not_mem_nil] at hn
      · subst hn; exact (upper_camel (.qualify (.inr hw.name) (hw.fields g hg).name)).append _
      · subst hn; exact upper_new _

/-- A name that starts with a lower-case letter. -/
def Lower (n : Ident) : Prop := ∃ b r, n = .byte b :: r ∧ isUpper b = false

theorem not_declared {f : FileD} (h : f.Wf) {n : Ident} (hn : Lower n) : n ∉ (program f).flatMap Decl.declared := by
  intro hm
  obtain ⟨b, r, rfl, hb⟩ := hn
  obtain ⟨b', r', he, hb'⟩ := declared_upper h _ hm
  cases he
  rw [hb] at hb'; cases hb'

theorem upper_ne {n m : Ident} (h : Upper n) (hm : Lower m) : n ≠ m := by
  obtain ⟨b, r, rfl, hb⟩ := h
  obtain ⟨b', r', rfl, hb'⟩ := hm
  intro h
  cases h
  rw [hb] at hb'; cases hb'

/-! ## What is found -/

/-- A function declaration as a function. -/
def _root_.GoAst.Decl.fn : Decl → Func
  | .func r _ ps t b => ⟨r, ps, t, b⟩
  | _ => ⟨none, [], none, .skip⟩

section
variable {f : FileD} (h : f.Plain) {t : Bytes × List FieldD} (ht : t ∈ f.types)
include h ht

theorem mem_decl {d : Decl} (hd : d ∈ msgDecls t.1 t.2) : d ∈ program f := by
  rw [program_units]
  refine List.mem_append_right _ (List.mem_flatMap.mpr ⟨.msg t.1 t.2, mem_units_type ht _ ?_, hd⟩)
  simp [typeUnits]

theorem find_struct : findStruct (program f) (camel t.1) = some (t.2.map fun g => (camel g.name, fieldTy t.1 g)) :=
  findStruct_eq h.distinct (mem_decl h ht (by simp [msgDecls]))

theorem find_new : findFunc (program f) (go!"New" ++ camel t.1) = some (newFunc (camel t.1) (newElements t.2)).fn :=
  findFunc_eq h.distinct (mem_decl h ht (by simp [msgDecls, newFunc]))

theorem find_encode : findMethod (program f) (camel t.1) go!"Encode" = some (encodeDecl t.1 t.2).fn := by
  refine findMethod_eq h.distinct (u := .msg t.1 t.2) (mem_units_type ht _ (by simp [typeUnits])) (v := .ptr (.name (camel t.1))) ?_ rfl ?_
  · simp only [Unit.decls, msgDecls]
    exact List.mem_cons_of_mem _ (List.mem_cons_of_mem _ (List.mem_cons_of_mem _ (List.mem_cons_self ..)))
  · intro x' v' ps' r' b' hm
    simp only [Unit.decls, msgDecls, newFunc, errorFunc, encodeDecl, encodeFunc, decodeApi, decodeDecl, decodeFunc, List.mem_cons, List.not_mem_nil, or_false,
      reduceCtorEq, Decl.func.injEq, false_and, false_or, Option.some.injEq, Prod.mk.injEq] at hm
    rcases hm with ⟨_, hn, _⟩ | hm | ⟨_, hn, _⟩ | ⟨_, hn, _⟩
    · exact absurd hn (by decide)
    · obtain ⟨⟨h1, h2⟩, _, h3, h4, h5⟩ := hm
      exact ⟨h1, h2, h3, h4, h5⟩
    · exact absurd hn (by decide)
    · exact absurd hn (by decide)

theorem find_Decode : findMethod (program f) (camel t.1) go!"Decode" = some (decodeApi (camel t.1)).fn := by
  refine findMethod_eq h.distinct (u := .msg t.1 t.2) (mem_units_type ht _ (by simp [typeUnits])) (v := .ptr (.name (camel t.1))) ?_ rfl ?_
  · simp only [Unit.decls, msgDecls]
    exact List.mem_cons_of_mem _ (List.mem_cons_of_mem _ (List.mem_cons_of_mem _ (List.mem_cons_of_mem _ (List.mem_cons_self ..))))
  · intro x' v' ps' r' b' hm
    simp only [Unit.decls, msgDecls, newFunc, errorFunc, encodeDecl, encodeFunc, decodeApi, decodeDecl, decodeFunc, List.mem_cons, List.not_mem_nil, or_false,
      reduceCtorEq, Decl.func.injEq, false_and, false_or, Option.some.injEq, Prod.mk.injEq] at hm
    rcases hm with ⟨_, hn, _⟩ | ⟨_, hn, _⟩ | hm | ⟨_, hn, _⟩
    · exact absurd hn (by decide)
    · exact absurd hn (by decide)
    · obtain ⟨⟨h1, h2⟩, _, h3, h4, h5⟩ := hm
      exact ⟨h1, h2, h3, h4, h5⟩
    · exact absurd hn (by decide)

theorem find_decode : findMethod (program f) (camel t.1) go!"decode" = some (decodeDecl t.1 t.2).fn := by
  refine findMethod_eq h.distinct (u := .msg t.1 t.2) (mem_units_type ht _ (by simp [typeUnits])) (v := .ptr (.name (camel t.1))) ?_ rfl ?_
  · simp only [Unit.decls, msgDecls]
    exact List.mem_cons_of_mem _ (List.mem_cons_of_mem _ (List.mem_cons_of_mem _ (List.mem_cons_of_mem _ (List.mem_cons_of_mem _ (List.mem_cons_self ..)))))
  · intro x' v' ps' r' b' hm
    simp only [Unit.decls, msgDecls, newFunc, errorFunc, encodeDecl, encodeFunc, decodeApi, decodeDecl, decodeFunc, List.mem_cons, List.not_mem_nil, or_false,
      reduceCtorEq, Decl.func.injEq, false_and, false_or, Option.some.injEq, Prod.mk.injEq] at hm
    rcases hm with ⟨_, hn, _⟩ | ⟨_, hn, _⟩ | ⟨_, hn, _⟩ | hm
    · exact absurd hn (by decide)
    · exact absurd hn (by decide)
    · exact absurd hn (by decide)
    · obtain ⟨⟨h1, h2⟩, _, h3, h4, h5⟩ := hm
      exact ⟨h1, h2, h3, h4, h5⟩

/-! Map fields. -/

variable {g : FieldD} (hg : g ∈ t.2) {kk : PKind} (hs : g.shape = .map kk)
include hg hs

theorem mem_map : Unit.map t.1 g kk ∈ f.units := by
  refine mem_units_type ht _ (List.mem_append_left _ (List.mem_flatMap.mpr ⟨g, hg, ?_⟩))
  simp [mapUnits, hs]

theorem mem_mapDecl {d : Decl} (hd : d ∈ (Unit.map t.1 g kk).decls) : d ∈ program f := by
  rw [program_units]
  exact List.mem_append_right _ (List.mem_flatMap.mpr ⟨_, mem_map h ht hg hs, hd⟩)

theorem find_mapType : findType (program f) (mapName t.1 g) = some (.map (scalarTy kk) (elemTy g.kind (camel g.type))) :=
  findType_eq h.distinct (mem_mapDecl h ht hg hs (by simp [Unit.decls, mapDecls]))

theorem find_mapNew : findFunc (program f) (go!"New" ++ mapName t.1 g) =
    some ⟨none, [(go!"size", tuint32)], some (.map (scalarTy kk) (elemTy g.kind (camel g.type))),
      block [.ret1 (.make (.map (scalarTy kk) (elemTy g.kind (camel g.type))) (.var go!"size"))]⟩ :=
  findFunc_eq h.distinct (mem_mapDecl h ht hg hs (by simp [Unit.decls, mapDecls]))

theorem find_mapEncode : findMethod (program f) (mapName t.1 g) go!"Encode" = some (encodeMapFunc (mapName t.1 g) kk g.kind).fn := by
  refine findMethod_eq h.distinct (u := .map t.1 g kk) (mem_map h ht hg hs) (v := .name (mapName t.1 g)) ?_ rfl ?_
  · simp only [Unit.decls, mapDecls]
    exact List.mem_append_right _ (List.mem_cons_self ..)
  · intro x' v' ps' r' b' hm
    simp only [Unit.decls, mapDecls, encodeMapFunc, decodeMapFunc, List.mem_append, List.mem_cons, List.not_mem_nil, or_false, reduceCtorEq, Decl.func.injEq,
      false_and, false_or, Option.some.injEq, Prod.mk.injEq] at hm
    rcases hm with hm | ⟨_, hn, _⟩
    · obtain ⟨⟨h1, h2⟩, _, h3, h4, h5⟩ := hm
      exact ⟨h1, h2, h3, h4, h5⟩
    · exact absurd hn (by decide)

theorem find_mapDecode : findMethod (program f) (mapName t.1 g) go!"decode" = some (decodeMapFunc (mapName t.1 g) kk g.kind (camel g.type)).fn := by
  refine findMethod_eq h.distinct (u := .map t.1 g kk) (mem_map h ht hg hs) (v := .name (mapName t.1 g)) ?_ rfl ?_
  · simp only [Unit.decls, mapDecls]
    exact List.mem_append_right _ (List.mem_cons_of_mem _ (List.mem_cons_self ..))
  · intro x' v' ps' r' b' hm
    simp only [Unit.decls, mapDecls, encodeMapFunc, decodeMapFunc, List.mem_append, List.mem_cons, List.not_mem_nil, or_false, reduceCtorEq, Decl.func.injEq,
      false_and, false_or, Option.some.injEq, Prod.mk.injEq] at hm
    rcases hm with ⟨_, hn, _⟩ | hm
    · exact absurd hn (by decide)
    · obtain ⟨⟨h1, h2⟩, _, h3, h4, h5⟩ := hm
      exact ⟨h1, h2, h3, h4, h5⟩

end

theorem enum_decl {f : FileD} {n : Bytes} (hn : n ∈ f.enumNames) : .type (camel n) tuint32 ∈ program f := by
  obtain ⟨e, he, rfl⟩ := List.mem_map.mp hn
  rw [program_units]
  exact List.mem_append_right _ (List.mem_flatMap.mpr ⟨_, mem_units_enum he, by simp [Unit.decls, enumDecls]⟩)

theorem find_enum {f : FileD} (h : f.Plain) {n : Bytes} (hn : n ∈ f.enumNames) :
    findType (program f) (camel n) = some tuint32 ∧ findFunc (program f) (camel n) = none :=
  ⟨findType_eq h.distinct (enum_decl hn), findFunc_type h.distinct (enum_decl hn)⟩

theorem find_errNil (f : FileD) : findErr (program f) errNil = true := by
  have : errorsDecl ∈ program f := by simp [program]
  rw [findErr, List.any_eq_true]
  exact ⟨_, this, by cases lib <;> decide⟩

/-- Declared names. -/
theorem declared_new {f : FileD} (h : f.Plain) {t : Bytes × List FieldD} (ht : t ∈ f.types) :
    go!"New" ++ camel t.1 ∈ (program f).flatMap Decl.declared :=
  List.mem_flatMap.mpr ⟨_, mem_decl h ht (d := newFunc (camel t.1) (newElements t.2)) (by simp [msgDecls]), by simp [newFunc, Decl.declared]⟩

theorem declared_enum_name {f : FileD} {n : Bytes} (hn : n ∈ f.enumNames) : camel n ∈ (program f).flatMap Decl.declared :=
  List.mem_flatMap.mpr ⟨_, enum_decl hn, by simp [Decl.declared]⟩

end GoText
