import Verif.Gen.PackageFacts
import Verif.Props.Names

/-! # C73, C74: the identifiers of generated Go files -/

namespace Props
open Utils Package

/-! ## C73: every identifier a generated Go file uses is declared, and declared once -/

/-- A file whose fields refer only to messages declared in it (at any depth) and to enums declared at its top or directly
inside its top-level messages, and without repeated enums, declares every identifier it uses. -/
theorem C73_go_resolved_partial (f : FileD)
    (hmsg : ∀ fd ∈ f.fields, ∀ n, fd.ref = .message n → n ∈ f.messageNames)
    (henum : ∀ fd ∈ f.fields, ∀ n, fd.ref = .enum n → n ∈ f.outerEnumNames ∧ fd.shape ≠ .many) :
    ∀ u ∈ Go.uses f, u ∈ Go.decls f := by
  intro u hu
  rw [mem_decls]
  simp only [Go.uses, List.mem_append] at hu
  rcases hu with hu | hu
  · split at hu
    · simp at hu
    · exact .inl (by simpa using hu)
  · rw [uses_mem.2] at hu
    rcases hu with ⟨s, hs, h | h⟩ | ⟨fd, hfd, h⟩
    · exact .inr (.inl ⟨withMap s, by simp only [List.mem_append]; exact .inr (List.mem_map.mpr ⟨s, hs, rfl⟩), h⟩)
    · exact .inr (.inr ⟨withMap s, by simp only [List.mem_append]; exact .inr (List.mem_map.mpr ⟨s, hs, rfl⟩), h⟩)
    · have h1 := hmsg fd hfd
      have h2 := henum fd hfd
      unfold refUses at h
      cases hr : fd.ref with
      | scalar => rw [hr] at h; simp at h
      | enum n =>
        rw [hr] at h
        have h2 := h2 n hr
        simp only [if_neg h2.2, List.mem_singleton] at h
        exact .inr (.inl ⟨n, by simp [h2.1], h⟩)
      | message n =>
        rw [hr] at h
        have h1 := h1 n hr
        simp only [List.mem_cons, List.not_mem_nil, or_false] at h
        rcases h with h | h
        · exact .inr (.inl ⟨n, by simp [h1], h⟩)
        · exact .inr (.inr ⟨n, by simp [h1], h⟩)

/-- Nothing is declared twice in a file if the full names of its messages, enums, enum values and map fields (with `Map` appended)
differ in more than case, underscores and dots, and its package begins with a letter other than E and N. -/
theorem C73_go_unique_partial (f : FileD) (c : Byte) (rest : Bytes) (hpkg : f.package = c :: rest)
    (hletter : isLower c = true ∨ isUpper c = true) (hE : toUpper c ≠ 0x45) (hN : toUpper c ≠ 0x4E)
    (hnames : ((f.outerEnumNames ++ f.outerValueNames ++ f.messageNames ++
      f.mapFieldNames.map (· ++ ascii "Map")).map skeleton).Nodup) :
    (Go.decls f).Nodup := by
  rw [(decls_perm f).nodup_iff]
  have h1 := nodup_map_of_skeleton hnames
  have hsub : ((f.messageNames ++ f.mapFieldNames.map withMap).map camelCase).Nodup := by
    refine h1.sublist ?_
    refine List.Sublist.map _ ?_
    simp only [List.append_assoc]
    refine (List.sublist_append_right _ _).trans (List.sublist_append_right _ _)
  have h2 := nodup_new hsub
  -- every plain name begins with the first letter of the package
  have hstart : ∀ u ∈ (f.outerEnumNames ++ f.outerValueNames ++ f.messageNames ++ f.mapFieldNames.map withMap).map camelCase,
      ∃ out, u = toUpper c :: out := by
    intro u hu
    obtain ⟨s, hs, rfl⟩ := List.mem_map.mp hu
    have hq : ∀ (scope name : Bytes), (∃ t, scope = c :: t) → ∃ t, qualify scope name = c :: t := by
      rintro _ name ⟨t, rfl⟩
      exact ⟨_, qualify_cons _ _ _⟩
    have hpk : ∃ t, f.package = c :: t := ⟨rest, hpkg⟩
    have houter : ∀ p ∈ f.outerEnums, ∃ t, p.1 = c :: t := by
      intro p hp
      simp only [FileD.outerEnums, List.mem_append, List.mem_map, List.mem_flatMap] at hp
      rcases hp with ⟨e, _, rfl⟩ | ⟨m, _, e, _, rfl⟩
      · exact hpk
      · exact hq _ _ hpk
    have hin : ∀ s ∈ f.messageNames ++ f.mapFieldNames, ∃ t, s = c :: t := by
      intro s hs
      exact (mapped_start c []).2 f.messages f.package ⟨rest, by simpa using hpkg⟩ s hs
    have hc : ∃ t, s = c :: t := by
      simp only [List.mem_append, List.mem_map, FileD.outerEnumNames, FileD.outerValueNames, List.mem_flatMap] at hs
      rcases hs with ((⟨p, hp, rfl⟩ | ⟨p, hp, v, _, rfl⟩) | hs) | ⟨s, hs, rfl⟩
      · exact hq _ _ (houter p hp)
      · exact hq _ _ (houter p hp)
      · exact hin s (by simp [hs])
      · obtain ⟨t, rfl⟩ := hin s (by simp [hs])
        exact ⟨t ++ ascii "Map", rfl⟩
    obtain ⟨t, rfl⟩ := hc
    exact camelCase_cons t hletter
  have hnew : ∀ u ∈ (f.messageNames ++ f.mapFieldNames.map withMap).map newName, ∃ out, u = 0x4E#8 :: out := by
    intro u hu
    obtain ⟨s, _, rfl⟩ := List.mem_map.mp hu
    exact ⟨_, rfl⟩
  have herr : ∃ out, Go.errDecodeNil = 0x45#8 :: out := ⟨_, rfl⟩
  rw [List.nodup_cons, List.nodup_append]
  refine ⟨?_, h1, h2, ?_⟩
  · obtain ⟨e, he⟩ := herr
    rw [List.mem_append]
    rintro (h | h)
    · obtain ⟨o, ho⟩ := hstart _ h
      rw [he] at ho
      exact hE (List.cons.inj ho).1.symm
    · obtain ⟨o, ho⟩ := hnew _ h
      rw [he] at ho
      exact absurd (List.cons.inj ho).1 (by decide)
  · intro a ha b hb hab
    obtain ⟨o, ho⟩ := hstart a ha
    obtain ⟨o', ho'⟩ := hnew b hb
    rw [ho, ho'] at hab
    exact hN (List.cons.inj hab).1

/-- No Go package holds two generated files: both declare `ErrDecodeNil`. -/
theorem C73_go_two_files_false (f g : FileD) (files : List FileD) : ¬ GoNamesOk (f :: g :: files) := by
  intro h
  have := h.unique
  rw [List.flatMap_cons, List.nodup_append] at this
  exact this.2.2 Go.errDecodeNil (by simp [Go.decls]) Go.errDecodeNil (by simp [Go.decls]) rfl

/-- So a file that uses a type of another file, which proto allows through `import`, compiles in no package. -/
theorem C73_go_cross_file_false (files : List FileD) (f : FileD) (hf : f ∈ files) (u : Bytes) (hu : u ∈ Go.uses f)
    (hfar : u ∉ Go.decls f) : ¬ GoNamesOk files := by
  intro h
  match files, hf with
  | [g], hf =>
    rw [List.mem_singleton] at hf
    subst hf
    have := h.declared f (by simp) u hu
    simp at this
    exact hfar this
  | f :: g :: rest, _ => exact C73_go_two_files_false f g rest h

/-- A file with enums but without messages does not use the import of polyglot, which Go forbids. -/
theorem C73_go_enum_only_false (f : FileD) (files : List FileD) (hf : f ∈ files) (h : f.messages = []) :
    ¬ GoNamesOk files := by
  intro hok
  have := hok.imports f hf (ascii "polyglot") (by decide)
  rw [Go.usedImports, if_pos h] at this
  revert this; decide

/-- The type of a repeated enum field is never declared: for a package with a lower-case name, `[]` + name is
converted as one word and the name loses its capital (`[]pkgColour` for `type PkgColour`). -/
theorem C73_go_repeated_enum_false (files : List FileD) (f : FileD) (hf : f ∈ files) (fd : FieldD) (hfd : fd ∈ f.fields)
    (c : Byte) (n : Bytes) (hr : fd.ref = .enum (c :: n)) (hs : fd.shape = .many) (hc : isLower c = true) :
    ¬ GoNamesOk files := by
  intro h
  have hx : ∃ t, (camelCase (Go.slice ++ c :: n)).drop 2 = c :: t := by
    have e : Go.slice ++ c :: n = 0x5B#8 :: 0x5D#8 :: c :: n := rfl
    have h1 : camelCase (0x5B#8 :: 0x5D#8 :: c :: n) = camelLoop (0x5B#8 :: 0x5D#8 :: c :: n) := by simp [camelCase, underscore]
    rw [e, h1, camelLoop_word (by simp [underscore]) (by decide) (by decide)]
    have h2 : (0x5D#8 :: c :: n).takeWhile isLower = [] := by simp [List.takeWhile, show isLower 0x5D#8 = false by decide]
    have h3 : (0x5D#8 :: c :: n).dropWhile isLower = 0x5D#8 :: c :: n := by
      simp [List.dropWhile, show isLower 0x5D#8 = false by decide]
    rw [h2, h3, camelLoop_word (by simp [underscore]) (by decide) (by decide)]
    simp [List.takeWhile, hc]
  obtain ⟨t, ht⟩ := hx
  refine C73_go_cross_file_false files f hf (c :: t) ?_ ?_ h
  · simp only [Go.uses, List.mem_append]
    refine .inr ((uses_mem.2 _ _ _).mpr (.inr ⟨fd, hfd, ?_⟩))
    rw [refUses, hr]
    simp [hs, ht]
  · rw [mem_decls]
    rintro (he | ⟨s, _, he⟩ | ⟨s, _, he⟩)
    · have : c = 0x45 := (List.cons.inj he).1
      rw [this] at hc; revert hc; decide
    · have := (C46_words_capitalised s).2 c (by rw [← he]; rfl)
      rw [hc] at this; simp at this
    · have : c = 0x4E := (List.cons.inj he).1
      rw [this] at hc; revert hc; decide

/-- The generated package as a whole: one file with at least one message, names as above, and every struct with
distinct members (C74). -/
theorem C73_go_package_partial (f : FileD) (c : Byte) (rest : Bytes) (hpkg : f.package = c :: rest)
    (hletter : isLower c = true ∨ isUpper c = true) (hE : toUpper c ≠ 0x45) (hN : toUpper c ≠ 0x4E)
    (hnames : ((f.outerEnumNames ++ f.outerValueNames ++ f.messageNames ++
      f.mapFieldNames.map (· ++ ascii "Map")).map skeleton).Nodup)
    (hmsg : ∀ fd ∈ f.fields, ∀ n, fd.ref = .message n → n ∈ f.messageNames)
    (henum : ∀ fd ∈ f.fields, ∀ n, fd.ref = .enum n → n ∈ f.outerEnumNames ∧ fd.shape ≠ .many)
    (hsome : f.messages ≠ [])
    (hmembers : ∀ m ∈ allOf f.messages, (Go.fieldNames m ++ Go.methods).Nodup) : GoNamesOk [f] where
  unique := by simpa using C73_go_unique_partial f c rest hpkg hletter hE hN hnames
  declared := by
    intro g hg u hu
    rw [List.mem_singleton] at hg
    subst hg
    simpa using C73_go_resolved_partial g hmsg henum u hu
  imports := by
    intro g hg i hi
    rw [List.mem_singleton] at hg
    subst hg
    simpa [Go.usedImports, hsome, Go.imports] using hi
  members := by
    intro g hg
    rw [List.mem_singleton] at hg
    subst hg
    exact hmembers

/-! ### Examples -/

/-- `package shop; enum State { OPEN, SHUT } message Order { message Line { string name } repeated Line lines; map<string, Line> by_name; State state }` -/
def shop : FileD where
  package := ascii "shop"
  enums := [⟨ascii "State", [ascii "OPEN", ascii "SHUT"]⟩]
  messages := [.mk (ascii "Order")
    [⟨ascii "lines", .many, .message (ascii "shop.Order.Line")⟩, ⟨ascii "by_name", .map, .message (ascii "shop.Order.Line")⟩,
     ⟨ascii "state", .one, .enum (ascii "shop.State")⟩] []
    [.mk (ascii "Line") [⟨ascii "name", .one, .scalar⟩] [] []]]

example : GoNamesOk [shop] := by
  refine C73_go_package_partial shop (0x73) (ascii "hop") (by decide) (by decide) (by decide) (by decide) (by decide)
    ?_ ?_ (by decide) ?_
  · have : ∀ fd ∈ shop.fields, (match fd.ref with | .message n => decide (n ∈ shop.messageNames) | _ => true) = true := by
      decide
    intro fd h n hn
    have := this fd h
    rw [hn] at this
    exact of_decide_eq_true this
  · have : ∀ fd ∈ shop.fields, (match fd.ref with | .enum n => decide (n ∈ shop.outerEnumNames ∧ fd.shape ≠ .many) | _ => true) = true := by
      decide
    intro fd h n hn
    have := this fd h
    rw [hn] at this
    exact of_decide_eq_true this
  · have e : allOf shop.messages = [shop.messages[0], shop.messages[0].messages[0]] := rfl
    rw [e]
    intro m hm
    simp only [List.mem_cons, List.not_mem_nil, or_false] at hm
    rcases hm with rfl | rfl
    all_goals
      simp (decide := true) [Go.fieldNames, Go.methods, shop, MsgD.fields, MsgD.messages, ascii, camelCase, camelLoop, isLower, List.takeWhile, List.dropWhile]

/-- A file that imports another one does not compile, alone or with it. -/
example (rest : List FileD) : ¬ GoNamesOk
    (⟨ascii "b", [], [.mk (ascii "B") [⟨ascii "x", .one, .message (ascii "a.A")⟩] [] []]⟩ :: rest) := by
  refine C73_go_cross_file_false _ _ (List.mem_cons_self ..) (camelCase (ascii "a.A")) ?_ ?_
  · simp [Go.uses, Go.structUsesAll, Go.structUses, Go.fieldUses]
  · simp (decide := true) [Go.decls, Go.messageDecls, Go.structDecls, Go.structDeclsAll, qualify, MsgD.enums, Go.errDecodeNil,
      ascii, camelCase, camelLoop, isLower, List.takeWhile, List.dropWhile]

/-- A message `A.B` inside `A` and a message `AB` beside it get the same Go name: proto accepts them, Go does not. -/
theorem C73_go_nested_collision_false (pkg : Bytes) (rest : List FileD) :
    ¬ GoNamesOk (⟨pkg, [], [.mk (ascii "A") [] [] [.mk (ascii "B") [] [] []], .mk (ascii "AB") [] [] []]⟩ :: rest) := by
  intro h
  have h := h.unique
  rw [List.flatMap_cons, List.nodup_append] at h
  have h := h.1
  rw [(decls_perm _).nodup_iff, List.nodup_cons, List.nodup_append] at h
  have h := h.2.1
  have e : camelCase (qualify pkg (ascii "AB")) = camelCase (qualify (qualify pkg (ascii "A")) (ascii "B")) := by
    have hne : ∀ (c : Byte) (t : Bytes), camelLoop (t ++ dot :: ascii "AB") = camelLoop (t ++ dot :: ascii "A" ++ dot :: ascii "B") := by
      intro _ t
      rw [camelLoop_append_stop (by decide), show t ++ dot :: ascii "A" ++ dot :: ascii "B" = t ++ dot :: (ascii "A" ++ dot :: ascii "B") by simp,
        camelLoop_append_stop (by decide)]
      congr 1
      simp (decide := true) [ascii, camelLoop, isLower, List.takeWhile, List.dropWhile]
    cases pkg with
    | nil => simp (decide := true) [qualify, ascii, camelCase, camelLoop, isLower, List.takeWhile, List.dropWhile]
    | cons c p =>
      rw [qualify_cons, qualify_cons, qualify_cons]
      simp only [camelCase]
      have h1 := hne c p
      have h2 := hne c (c :: p)
      simp only [List.append_assoc, List.cons_append] at h1 h2 ⊢
      split
      · exact h1
      · exact h2
  simp [FileD.outerEnumNames, FileD.outerValueNames, FileD.outerEnums, MsgD.enums, FileD.messageNames, fullNamesAll,
    MsgD.fullNames, FileD.mapFieldNames, mapFieldsAll, MsgD.mapFields, e] at h

/-- So do a message `NewX` and the constructor of a message `X`, in a file without a package. -/
theorem C73_go_constructor_collision_false (rest : List FileD) :
    ¬ GoNamesOk (⟨[], [], [.mk (ascii "X") [] [] [], .mk (ascii "NewX") [] [] []]⟩ :: rest) := by
  intro h
  have h := h.unique
  rw [List.flatMap_cons, List.nodup_append] at h
  have h := h.1
  revert h
  simp (decide := true) [Go.decls, Go.messageDecls, Go.structDecls, Go.structDeclsAll, qualify, MsgD.enums, Go.errDecodeNil,
      ascii, camelCase, camelLoop, isLower, List.takeWhile, List.dropWhile]

/-- An enum declared inside a nested message is not emitted, so a field that uses it does not compile. -/
theorem C73_go_deep_enum_false (rest : List FileD) :
    ¬ GoNamesOk (⟨ascii "p", [], [.mk (ascii "A") [] []
      [.mk (ascii "B") [⟨ascii "e", .one, .enum (ascii "p.A.B.E")⟩] [⟨ascii "E", [ascii "ZERO"]⟩] []]]⟩ :: rest) := by
  refine C73_go_cross_file_false _ _ (List.mem_cons_self ..) (camelCase (ascii "p.A.B.E")) ?_ ?_
  · simp [Go.uses, Go.structUsesAll, Go.structUses, Go.fieldUses]
  · simp (decide := true) [Go.decls, Go.messageDecls, Go.structDecls, Go.structDeclsAll, qualify, MsgD.enums, Go.errDecodeNil,
      ascii, camelCase, camelLoop, isLower, List.takeWhile, List.dropWhile]

/-! ## C74: fields and methods of a generated Go struct do not clash -/

/-- Exactly when the members of a struct are distinct. -/
theorem members_iff (m : MsgD) : (Go.fieldNames m ++ Go.methods).Nodup ↔
    (Go.fieldNames m).Nodup ∧ ascii "Error" ∉ Go.fieldNames m ∧ ascii "Encode" ∉ Go.fieldNames m ∧
      ascii "Decode" ∉ Go.fieldNames m := by
  rw [List.nodup_append]
  constructor
  · rintro ⟨h1, _, h3⟩
    refine ⟨h1, fun h => h3 _ h _ (by decide) rfl, fun h => h3 _ h _ (by decide) rfl, fun h => h3 _ h _ (by decide) rfl⟩
  · rintro ⟨h1, hE, hEn, hD⟩
    refine ⟨h1, by decide, ?_⟩
    rintro a ha b hb rfl
    simp only [Go.methods, List.mem_cons, List.not_mem_nil, or_false] at hb
    rcases hb with rfl | rfl | rfl | rfl
    · exact hE ha
    · exact hEn ha
    · exact hD ha
    · obtain ⟨fd, _, he⟩ := List.mem_map.mp ha
      have := (C46_words_capitalised fd.name).2 0x64 (by rw [he]; decide)
      revert this; decide

theorem camelCase_error : camelCase (ascii "error") = ascii "Error" ∧ camelCase (ascii "encode") = ascii "Encode" ∧
    camelCase (ascii "decode") = ascii "Decode" := by
  refine ⟨?_, ?_, ?_⟩ <;> simp (decide := true) [ascii, camelCase, camelLoop, isLower, List.takeWhile, List.dropWhile]

/-- A message whose fields have distinct names in the style of the style guide, such as `user_id`: its Go struct has
distinct members exactly if no field is called `error`, `encode` or `decode`. -/
theorem C74_members_partial (m : MsgD) (hstyle : ∀ fd ∈ m.fields, snakeName fd.name = true ∧ nextLower fd.name = true)
    (hdistinct : (m.fields.map FieldD.name).Nodup) :
    (Go.fieldNames m ++ Go.methods).Nodup ↔
      ∀ fd ∈ m.fields, fd.name ≠ ascii "error" ∧ fd.name ≠ ascii "encode" ∧ fd.name ≠ ascii "decode" := by
  rw [members_iff]
  have hinj : (Go.fieldNames m).Nodup := by
    unfold Go.fieldNames
    generalize m.fields = fs at hstyle hdistinct ⊢
    induction fs with
    | nil => exact List.nodup_nil
    | cons a fs ih =>
      simp only [List.map_cons, List.nodup_cons, List.mem_map, not_exists, not_and] at hdistinct ⊢
      refine ⟨fun b hb he => hdistinct.1 b hb ?_, ih (fun fd h => hstyle fd (by simp [h])) hdistinct.2⟩
      have h1 := hstyle b (by simp [hb])
      have h2 := hstyle a (by simp)
      exact C47_style_guide_injective_partial _ _ h1.1 h2.1 h1.2 h2.2 he
  have key : ∀ w W : Bytes, snakeName w = true → nextLower w = true → camelCase w = W →
      (W ∉ Go.fieldNames m ↔ ∀ fd ∈ m.fields, fd.name ≠ w) := by
    intro w W h1 h2 h3
    constructor
    · rintro h fd hfd rfl
      exact h (List.mem_map.mpr ⟨fd, hfd, h3⟩)
    · intro h hm
      obtain ⟨fd, hfd, he⟩ := List.mem_map.mp hm
      exact h fd hfd (C47_style_guide_injective_partial _ _ (hstyle fd hfd).1 h1 (hstyle fd hfd).2 h2 (he.trans h3.symm))
  rw [key _ _ (by decide) (by decide) camelCase_error.1, key _ _ (by decide) (by decide) camelCase_error.2.1,
    key _ _ (by decide) (by decide) camelCase_error.2.2]
  constructor
  · rintro ⟨_, h1, h2, h3⟩ fd hfd
    exact ⟨h1 fd hfd, h2 fd hfd, h3 fd hfd⟩
  · intro h
    exact ⟨hinj, fun fd hfd => (h fd hfd).1, fun fd hfd => (h fd hfd).2.1, fun fd hfd => (h fd hfd).2.2⟩

/-- A file with a message that has a field called `error`, at any depth, compiles in no package. -/
theorem C74_error_field_false (files : List FileD) (f : FileD) (hf : f ∈ files) (m : MsgD) (hm : m ∈ allOf f.messages)
    (fd : FieldD) (hfd : fd ∈ m.fields)
    (hname : fd.name = ascii "error" ∨ fd.name = ascii "encode" ∨ fd.name = ascii "decode") : ¬ GoNamesOk files := by
  intro h
  have h := (members_iff m).mp (h.members f hf m hm)
  have hmem : ∀ w, camelCase fd.name = w → w ∈ Go.fieldNames m := fun w he => List.mem_map.mpr ⟨fd, hfd, he⟩
  rcases hname with he | he | he
  · exact h.2.1 (hmem _ (by rw [he]; exact camelCase_error.1))
  · exact h.2.2.1 (hmem _ (by rw [he]; exact camelCase_error.2.1))
  · exact h.2.2.2 (hmem _ (by rw [he]; exact camelCase_error.2.2))

example : (∀ fd ∈ (shop.messages[0]).fields, snakeName fd.name = true ∧ nextLower fd.name = true) ∧
    ((shop.messages[0]).fields.map FieldD.name).Nodup := by decide

end Props
