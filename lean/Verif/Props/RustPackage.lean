import Verif.Gen.RustPackageFacts
import Verif.Props.Names
import Verif.Props.Package

/-! # C75, C76: the Rust generator terminates; the names of generated Rust files resolve -/

namespace Props
open Utils Package
open Package.Rust (World Dependencies DependencyAnalysis LeadsToMap)

/-! ## C75: the Rust generator returns for every schema -/

/-- Exactly when the dependency analysis, which runs before anything is generated, returns: there is no endless chain of
message types, each with a field (singular, repeated or map) of the next, that starts at a field of a top-level message. -/
theorem C75_returns_iff_partial (W : World) (f : FileD) :
    (∃ depth d, DependencyAnalysis W depth f = some d) ↔
      ¬ ∃ s : Nat → Bytes, (∃ m ∈ f.messages, ∃ fd ∈ m.fields, fd.ref = .message (s 0)) ∧
        ∀ i, ∃ fd ∈ W (s i), fd.ref = .message (s (i + 1)) := by
  rw [Rust.analysis_iff_acc]
  constructor
  · rintro h ⟨s, ⟨m, hm, fd, hfd, h0⟩, hs⟩
    exact (Rust.acc_iff_chain (Rust.Refers W) (s 0)).mp (h m hm fd hfd _ h0) ⟨s, rfl, hs⟩
  · intro h m hm fd hfd n hn
    rw [Rust.acc_iff_chain]
    rintro ⟨s, rfl, hs⟩
    exact h ⟨s, ⟨m, hm, fd, hfd, hn⟩, hs⟩

/-- So it returns for schemas that can be ordered: every message refers only to earlier ones. -/
theorem C75_ordered_partial (W : World) (f : FileD) (rank : Bytes → Nat)
    (h : ∀ a b, (∃ fd ∈ W a, fd.ref = .message b) → rank b < rank a) : ∃ depth d, DependencyAnalysis W depth f = some d := by
  rw [C75_returns_iff_partial]
  rintro ⟨s, _, hs⟩
  have hlt : ∀ i, rank (s (i + 1)) < rank (s i) := fun i => h _ _ (hs i)
  have hle : ∀ i, rank (s i) + i ≤ rank (s 0) := by
    intro i
    induction i with
    | zero => simp
    | succ i ih => have := hlt i; omega
  have := hle (rank (s 0) + 1)
  omega

/-- It does not return (the Go stack overflows) for any file with a top-level message that refers to a message type that
refers to itself, even in a repeated or map field, where the type is perfectly usable. -/
theorem C75_recursive_false (W : World) (f : FileD) (n : Bytes) (m : MsgD) (hm : m ∈ f.messages)
    (href : ∃ fd ∈ m.fields, fd.ref = .message n) (hself : ∃ fd ∈ W n, fd.ref = .message n) :
    ∀ depth, DependencyAnalysis W depth f = none := by
  intro depth
  cases hd : DependencyAnalysis W depth f with
  | none => rfl
  | some d =>
    have := (C75_returns_iff_partial W f).mp ⟨depth, d, hd⟩
    exact absurd ⟨fun _ => n, ⟨m, hm, href⟩, fun _ => hself⟩ this

/-- A tree: `message Tree { repeated Tree children }`. -/
example (depth : Nat) : DependencyAnalysis (fun _ => [⟨ascii "children", .many, .message (ascii "p.Tree")⟩]) depth
    ⟨ascii "p", [], [.mk (ascii "Tree") [⟨ascii "children", .many, .message (ascii "p.Tree")⟩] [] []]⟩ = none :=
  C75_recursive_false _ _ (ascii "p.Tree") _ (List.mem_cons_self ..) ⟨_, List.mem_cons_self .., rfl⟩ ⟨_, List.mem_cons_self .., rfl⟩ depth

/-- The message types of the example file `shop`. -/
def shopWorld : World := fun n =>
  if n = ascii "shop.Order" then (shop.messages[0]).fields
  else if n = ascii "shop.Order.Line" then ((shop.messages[0]).messages[0]).fields else []

theorem shop_returns : ∃ depth d, DependencyAnalysis shopWorld depth shop = some d := by
  refine C75_ordered_partial _ _ (fun n => if n = ascii "shop.Order" then 1 else 0) ?_
  rintro a b ⟨fd, hfd, hr⟩
  simp only [shopWorld] at hfd
  split at hfd
  · next h =>
    simp only [shop, List.getElem_cons_zero, MsgD.fields, List.mem_cons, List.not_mem_nil, or_false] at hfd
    rcases hfd with rfl | rfl | rfl
    · obtain rfl := Ref.message.inj hr; rw [h]; decide
    · obtain rfl := Ref.message.inj hr; rw [h]; decide
    · cases hr
  · split at hfd
    · simp only [shop, List.getElem_cons_zero, MsgD.fields, MsgD.messages, List.mem_cons, List.not_mem_nil, or_false] at hfd
      subst hfd; cases hr
    · simp at hfd

/-! ## C76: the names of a generated Rust file resolve -/

/-- What the analysis reports: `Enums` if the file has an enum at its top, `Maps` if a top-level message has a map field or leads
to a message that has one. -/
theorem C76_dependencies_partial (W : World) (depth : Nat) (f : FileD) (d : Dependencies)
    (h : DependencyAnalysis W depth f = some d) :
    (d.Enums = true ↔ f.enums ≠ []) ∧ (d.Maps = true ↔ ∃ m ∈ f.messages, ∃ fd ∈ m.fields, LeadsToMap W fd) := by
  have h1 := Rust.tm_result W depth f.messages _ d h
  refine ⟨?_, by rw [h1.2]; simp⟩
  rw [h1.1]
  cases f.enums <;> simp

theorem rust_decls_perm (f : FileD) :
    (Rust.decls f).Perm (Rust.traits ++ (f.outerEnumNames ++ f.messageNames).map camelCase) := by
  have hs : (∀ m scope, Rust.structDecls scope m |>.Perm ((m.fullNames scope).map camelCase)) ∧
      (∀ ms scope, Rust.structDeclsAll scope ms |>.Perm ((fullNamesAll scope ms).map camelCase)) := by
    apply msg_induction
    · intro n fs es ms ih scope
      have h := ih (qualify scope n)
      rw [List.perm_iff_count] at h ⊢
      intro x
      have h := h x
      simp only [Rust.structDecls, MsgD.fullNames, List.map_cons, List.count_append, List.count_cons, List.count_nil] at h ⊢
      omega
    · intro scope; exact .refl _
    · intro m ms h1 h2 scope
      simp only [Rust.structDeclsAll, fullNamesAll, List.map_append]
      exact (h1 scope).append (h2 scope)
  have key : ∀ ms : List MsgD, (ms.flatMap (Rust.messageDecls f.package)).Perm
      (((ms.flatMap fun m => m.enums.map fun e => (qualify f.package m.name, e)).map fun p => camelCase (qualify p.1 p.2.name)) ++
        (fullNamesAll f.package ms).map camelCase) := by
    intro ms
    induction ms with
    | nil => exact .refl _
    | cons m ms ih =>
      have h1 := hs.1 m f.package
      rw [List.perm_iff_count] at ih h1 ⊢
      intro x
      have ih := ih x
      have h1 := h1 x
      simp only [List.flatMap_cons, Rust.messageDecls, fullNamesAll, List.map_append, List.map_map, Function.comp_def,
        List.count_append] at ih h1 ⊢
      omega
  have h2 := key f.messages
  rw [List.perm_iff_count] at h2 ⊢
  intro x
  have h2 := h2 x
  simp only [Rust.decls, FileD.outerEnumNames, FileD.outerEnums, FileD.messageNames, List.map_append, List.map_map,
    Function.comp_def, List.count_append] at h2 ⊢
  omega

theorem rust_mem_decls (f : FileD) (u : Bytes) : u ∈ Rust.decls f ↔
    u ∈ Rust.traits ∨ ∃ s ∈ f.outerEnumNames ++ f.messageNames, u = camelCase s := by
  rw [(rust_decls_perm f).mem_iff, List.mem_append, List.mem_map]
  constructor
  · rintro (h | ⟨s, h1, h2⟩)
    · exact .inl h
    · exact .inr ⟨s, h1, h2.symm⟩
  · rintro (h | ⟨s, h1, h2⟩)
    · exact .inl h
    · exact .inr ⟨s, h1, h2.symm⟩

theorem rust_struct_uses :
    (∀ m u, u ∈ Rust.structUses m ↔ ∃ fd ∈ m.all.flatMap MsgD.fields, u ∈ Rust.fieldUses fd) ∧
    (∀ ms u, u ∈ Rust.structUsesAll ms ↔ ∃ fd ∈ (allOf ms).flatMap MsgD.fields, u ∈ Rust.fieldUses fd) := by
  apply msg_induction
  · intro n fs es ms ih u
    simp only [Rust.structUses, List.mem_append, ih, MsgD.all, List.flatMap_cons, MsgD.fields, List.mem_flatMap]
    constructor
    · rintro (⟨fd, h1, h2⟩ | ⟨fd, h1, h2⟩)
      · exact ⟨fd, .inr h1, h2⟩
      · exact ⟨fd, .inl h1, h2⟩
    · rintro ⟨fd, h1 | h1, h2⟩
      · exact .inr ⟨fd, h1, h2⟩
      · exact .inl ⟨fd, h1, h2⟩
  · intro u; simp [Rust.structUsesAll, allOf]
  · intro m ms h1 h2 u
    simp only [Rust.structUsesAll, List.mem_append, h1, h2, allOf, List.flatMap_append]
    constructor
    · rintro (⟨fd, h1, h2⟩ | ⟨fd, h1, h2⟩)
      · exact ⟨fd, .inl h1, h2⟩
      · exact ⟨fd, .inr h1, h2⟩
    · rintro ⟨fd, h1 | h1, h2⟩
      · exact .inl ⟨fd, h1, h2⟩
      · exact .inr ⟨fd, h1, h2⟩

/-- Every type a file uses is in scope, if its fields refer only to messages declared in it (at any depth) and to enums at
its top or directly inside its top-level messages; a map field occurs only if one can be reached from a top-level message; and
enums occur inside messages only if one also occurs at the top. -/
theorem C76_rust_resolved_partial (W : World) (depth : Nat) (f : FileD) (d : Dependencies)
    (h : DependencyAnalysis W depth f = some d)
    (hmsg : ∀ fd ∈ f.fields, ∀ n, fd.ref = .message n → n ∈ f.messageNames)
    (henum : ∀ fd ∈ f.fields, ∀ n, fd.ref = .enum n → n ∈ f.outerEnumNames)
    (hmap : (∃ fd ∈ f.fields, fd.shape = .map) → ∃ m ∈ f.messages, ∃ fd ∈ m.fields, LeadsToMap W fd)
    (hinner : (∃ m ∈ f.messages, m.enums ≠ []) → f.enums ≠ []) :
    ∀ u ∈ Rust.uses f, u ∈ Rust.imports d ++ Rust.decls f := by
  have hd := C76_dependencies_partial W depth f d h
  intro u hu
  rw [List.mem_append, rust_mem_decls]
  simp only [Rust.uses, List.mem_append] at hu
  rcases hu with hu | hu
  · split at hu
    · simp at hu
    · next hn =>
      have he : f.enums ≠ [] := by
        intro he
        refine hn ⟨he, fun m hm => ?_⟩
        cases hme : m.enums with
        | nil => rfl
        | cons e es => exact absurd he (hinner ⟨m, hm, by simp [hme]⟩)
      have : d.Enums = true := hd.1.mpr he
      rw [List.mem_singleton] at hu
      subst hu
      exact .inl (by simp [Rust.imports, this])
  · obtain ⟨fd, hfd, hu⟩ := (rust_struct_uses.2 _ _).mp hu
    simp only [Rust.fieldUses, List.mem_append] at hu
    rcases hu with hu | hu
    · split at hu
      · next hs =>
        have : d.Maps = true := hd.2.mpr (hmap ⟨fd, hfd, hs⟩)
        rw [List.mem_singleton] at hu
        subst hu
        exact .inl (by simp [Rust.imports, this])
      · simp at hu
    · cases hr : fd.ref with
      | scalar => rw [hr] at hu; simp at hu
      | enum n =>
        rw [hr] at hu
        exact .inr (.inr ⟨n, by simp [henum fd hfd n hr], by simpa using hu⟩)
      | message n =>
        rw [hr] at hu
        exact .inr (.inr ⟨n, by simp [hmsg fd hfd n hr], by simpa using hu⟩)

/-- Everything a file brings into scope or declares of its own accord. -/
def rustReserved : List Bytes := Rust.imports ⟨true, true⟩ ++ Rust.traits

/-- The names of a file are distinct if the full names of its messages and enums differ in more than case, underscores
and dots, from each other and from the names every file brings with it. -/
theorem C76_rust_unique_partial (f : FileD) (d : Dependencies)
    (hnames : ((rustReserved ++ f.outerEnumNames ++ f.messageNames).map skeleton).Nodup) :
    (Rust.imports d ++ Rust.decls f).Nodup := by
  have hp : (Rust.imports d ++ Rust.decls f).Perm
      (Rust.imports d ++ Rust.traits ++ (f.outerEnumNames ++ f.messageNames).map camelCase) := by
    rw [List.append_assoc]
    exact (rust_decls_perm f).append_left _
  have hres : (Rust.imports d ++ Rust.traits).Nodup ∧ ∀ a ∈ Rust.imports d ++ Rust.traits, a ∈ rustReserved := by
    rcases d with ⟨_ | _, _ | _⟩ <;> decide
  rw [hp.nodup_iff, List.nodup_append]
  rw [List.append_assoc, List.map_append, List.nodup_append] at hnames
  refine ⟨hres.1, nodup_map_of_skeleton hnames.2.1, ?_⟩
  rintro a ha b hb rfl
  obtain ⟨s, hs, he⟩ := List.mem_map.mp hb
  refine hnames.2.2 (skeleton a) (List.mem_map.mpr ⟨a, hres.2 a ha, rfl⟩) (skeleton s) (List.mem_map.mpr ⟨s, hs, rfl⟩) ?_
  rw [← he, skeleton_camelCase]

/-- The generated module as a whole: a file whose message types form no cycle, names as above, and lower-case field names,
distinct in every message, none of them a keyword of Rust. -/
theorem C76_rust_module_partial (W : World) (f : FileD)
    (hcycle : ¬ ∃ s : Nat → Bytes, (∃ m ∈ f.messages, ∃ fd ∈ m.fields, fd.ref = .message (s 0)) ∧
        ∀ i, ∃ fd ∈ W (s i), fd.ref = .message (s (i + 1)))
    (hnames : ((rustReserved ++ f.outerEnumNames ++ f.messageNames).map skeleton).Nodup)
    (hmsg : ∀ fd ∈ f.fields, ∀ n, fd.ref = .message n → n ∈ f.messageNames)
    (henum : ∀ fd ∈ f.fields, ∀ n, fd.ref = .enum n → n ∈ f.outerEnumNames)
    (hmap : (∃ fd ∈ f.fields, fd.shape = .map) → ∃ m ∈ f.messages, ∃ fd ∈ m.fields, LeadsToMap W fd)
    (hinner : (∃ m ∈ f.messages, m.enums ≠ []) → f.enums ≠ [])
    (hlower : ∀ fd ∈ f.fields, ∀ c ∈ fd.name, isUpper c = false)
    (hdistinct : ∀ m ∈ allOf f.messages, (m.fields.map FieldD.name).Nodup)
    (hkeyword : ∀ fd ∈ f.fields, fd.name.map BitVec.toNat ∉ Rust.keywords) : RustNamesOk W f where
  generated := by
    obtain ⟨depth, d, hd⟩ := (C75_returns_iff_partial W f).mpr hcycle
    exact ⟨depth, d, hd, C76_rust_unique_partial f d hnames,
      C76_rust_resolved_partial W depth f d hd hmsg henum hmap hinner⟩
  fields := by
    intro m hm
    have hsame : ∀ fd ∈ m.fields, snakeCase (fd.name.map BitVec.toNat) = fd.name.map BitVec.toNat := by
      intro fd hfd
      apply C48_style_guide_unchanged
      intro c hc
      obtain ⟨b, hb, rfl⟩ := List.mem_map.mp hc
      have := hlower fd (List.mem_flatMap.mpr ⟨m, hm, hfd⟩) b hb
      intro hu
      simp [isUpper, hu.1, hu.2] at this
    have hn : Rust.fieldNames m = m.fields.map fun fd => fd.name.map BitVec.toNat := by
      unfold Rust.fieldNames
      exact List.map_congr_left hsame
    rw [hn]
    constructor
    · have := hdistinct m hm
      generalize m.fields = fs at this
      induction fs with
      | nil => exact List.nodup_nil
      | cons a fs ih =>
        simp only [List.map_cons, List.nodup_cons, List.mem_map, not_exists, not_and] at this ⊢
        refine ⟨fun b hb he => this.1 b hb ?_, ih this.2⟩
        exact (List.map_inj_right (fun x y h => BitVec.eq_of_toNat_eq h)).mp he
    · intro n hmem
      obtain ⟨fd, hfd, rfl⟩ := List.mem_map.mp hmem
      exact hkeyword fd (List.mem_flatMap.mpr ⟨m, hm, hfd⟩)

example : RustNamesOk shopWorld shop := by
  refine C76_rust_module_partial _ _ ?_ (by decide) ?_ ?_ ?_ ?_ (by decide) ?_ (by decide)
  · exact (C75_returns_iff_partial shopWorld shop).mp shop_returns
  · have : ∀ fd ∈ shop.fields, (match fd.ref with | .message n => decide (n ∈ shop.messageNames) | _ => true) = true := by
      decide
    intro fd h n hn
    have := this fd h
    rw [hn] at this
    exact of_decide_eq_true this
  · have : ∀ fd ∈ shop.fields, (match fd.ref with | .enum n => decide (n ∈ shop.outerEnumNames) | _ => true) = true := by
      decide
    intro fd h n hn
    have := this fd h
    rw [hn] at this
    exact of_decide_eq_true this
  · intro _
    exact ⟨shop.messages[0], by simp [shop], ⟨ascii "by_name", .map, .message (ascii "shop.Order.Line")⟩, by simp [shop, MsgD.fields], .here rfl⟩
  · intro _; decide
  · intro m hm
    have e : allOf shop.messages = [shop.messages[0], shop.messages[0].messages[0]] := rfl
    rw [e] at hm
    simp only [List.mem_cons, List.not_mem_nil, or_false] at hm
    rcases hm with rfl | rfl <;> decide

/-- A field named like a keyword, for instance `type`: no file with such a field, at any depth, yields a module that compiles. -/
theorem C76_keyword_field_false (W : World) (f : FileD) (m : MsgD) (hm : m ∈ allOf f.messages) (fd : FieldD)
    (hfd : fd ∈ m.fields) (hname : snakeCase (fd.name.map BitVec.toNat) ∈ Rust.keywords) : ¬ RustNamesOk W f := by
  intro h
  exact (h.fields m hm).2 _ (List.mem_map.mpr ⟨fd, hfd, rfl⟩) hname

example : snakeCase ((ascii "type").map BitVec.toNat) ∈ Rust.keywords := by decide

theorem imports_sub (d : Dependencies) : ∀ a ∈ Rust.imports d, a ∈ rustReserved := by
  rcases d with ⟨_ | _, _ | _⟩ <;> decide

/-- A type of another file is never in scope. -/
theorem C76_cross_file_false (W : World) (f : FileD) (u : Bytes) (hu : u ∈ Rust.uses f) (hfar : u ∉ Rust.decls f)
    (hres : u ∉ rustReserved) : ¬ RustNamesOk W f := by
  intro h
  obtain ⟨depth, d, _, _, h3⟩ := h.generated
  rcases List.mem_append.mp (h3 u hu) with h | h
  · exact hres (imports_sub d u h)
  · exact hfar h

/-- A map field that no top-level message leads to, as in a nested message that is not used: `HashMap` is not in
scope (unless the file itself declares a type of that name). -/
theorem C76_hidden_map_false (W : World) (f : FileD) (fd : FieldD) (hfd : fd ∈ f.fields) (hs : fd.shape = .map)
    (hhidden : ¬ ∃ m ∈ f.messages, ∃ g ∈ m.fields, LeadsToMap W g) (hdecl : ascii "HashMap" ∉ Rust.decls f) :
    ¬ RustNamesOk W f := by
  intro h
  obtain ⟨depth, d, h1, _, h3⟩ := h.generated
  have hd := C76_dependencies_partial W depth f d h1
  have hm : d.Maps = false := by
    cases hm : d.Maps with
    | false => rfl
    | true => exact absurd (hd.2.mp hm) hhidden
  have hu : ascii "HashMap" ∈ Rust.uses f := by
    simp only [Rust.uses, List.mem_append]
    exact .inr ((rust_struct_uses.2 _ _).mpr ⟨fd, hfd, by simp [Rust.fieldUses, hs]⟩)
  rcases List.mem_append.mp (h3 _ hu) with h | h
  · rcases d with ⟨_ | _, _ | _⟩
    · revert h; decide
    · simp at hm
    · revert h; decide
    · simp at hm
  · exact hdecl h

/-- Enums only inside messages: `TryFromPrimitive` is not in scope (unless the file itself declares such a type). -/
theorem C76_inner_enum_false (W : World) (f : FileD) (m : MsgD) (hm : m ∈ f.messages) (hin : m.enums ≠ []) (htop : f.enums = [])
    (hdecl : ascii "TryFromPrimitive" ∉ Rust.decls f) : ¬ RustNamesOk W f := by
  intro h
  obtain ⟨depth, d, h1, _, h3⟩ := h.generated
  have hd := C76_dependencies_partial W depth f d h1
  have he : d.Enums = false := by
    cases he : d.Enums with
    | false => rfl
    | true => exact absurd htop (hd.1.mp he)
  have hu : ascii "TryFromPrimitive" ∈ Rust.uses f := by
    simp only [Rust.uses, List.mem_append]
    refine .inl ?_
    rw [if_neg]
    · simp
    · rintro ⟨_, h⟩; exact hin (h m hm)
  rcases List.mem_append.mp (h3 _ hu) with h | h
  · rcases d with ⟨_ | _, _ | _⟩
    · revert h; decide
    · revert h; decide
    · simp at he
    · simp at he
  · exact hdecl h

/-- A message whose Rust name is one of the names every file brings with it, such as `message Kind` in a file without a package. -/
theorem C76_reserved_false (W : World) (f : FileD) (s : Bytes) (hs : s ∈ f.messageNames)
    (hres : camelCase s ∈ Rust.imports ⟨false, false⟩ ++ Rust.traits) : ¬ RustNamesOk W f := by
  intro h
  obtain ⟨depth, d, _, h2, _⟩ := h.generated
  have hp : (Rust.imports d ++ Rust.decls f).Perm
      (Rust.imports d ++ Rust.traits ++ (f.outerEnumNames ++ f.messageNames).map camelCase) := by
    rw [List.append_assoc]
    exact (rust_decls_perm f).append_left _
  rw [hp.nodup_iff, List.nodup_append] at h2
  refine h2.2.2 (camelCase s) ?_ (camelCase s) (List.mem_map.mpr ⟨s, by simp [hs], rfl⟩) rfl
  have : ∀ a ∈ Rust.imports ⟨false, false⟩ ++ Rust.traits, a ∈ Rust.imports d ++ Rust.traits := by
    rcases d with ⟨_ | _, _ | _⟩ <;> decide
  exact this _ hres

/-- Concrete files for the four cases. -/
example (W : World) : ¬ RustNamesOk W ⟨[], [], [.mk (ascii "Kind") [] [] []]⟩ := by
  refine C76_reserved_false W _ (ascii "Kind") (by decide) ?_
  simp (decide := true) [Rust.imports, Rust.traits, ascii, camelCase, camelLoop, isLower, List.takeWhile, List.dropWhile]

example (W : World) : ¬ RustNamesOk W ⟨ascii "p", [], [.mk (ascii "A") [] [⟨ascii "E", [ascii "ZERO"]⟩] []]⟩ := by
  refine C76_inner_enum_false W _ _ (List.mem_cons_self ..) (by simp [MsgD.enums]) rfl ?_
  simp (decide := true) [Rust.decls, Rust.messageDecls, Rust.structDecls, Rust.structDeclsAll, Rust.traits, qualify, MsgD.enums,
    MsgD.name, ascii, camelCase, camelLoop, isLower, List.takeWhile, List.dropWhile]

example (W : World) : ¬ RustNamesOk W
    ⟨ascii "p", [], [.mk (ascii "A") [] [] [.mk (ascii "B") [⟨ascii "m", .map, .scalar⟩] [] []]]⟩ := by
  refine C76_hidden_map_false W _ ⟨ascii "m", .map, .scalar⟩ (by decide) rfl ?_ ?_
  · rintro ⟨m, hm, g, hg, _⟩
    simp at hm
    subst hm
    simp [MsgD.fields] at hg
  · simp (decide := true) [Rust.decls, Rust.messageDecls, Rust.structDecls, Rust.structDeclsAll, Rust.traits, qualify, MsgD.enums,
      ascii, camelCase, camelLoop, isLower, List.takeWhile, List.dropWhile]

end Props
