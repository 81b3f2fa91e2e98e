import Verif.Spec.ProtoNames
import Verif.Gen.UtilsFacts

/-! # Facts about the identifiers of generated Go files -/

namespace Package
open Utils

/-! ## `camelCase` and the suffix of map types -/

theorem takeWhile_append_stop {p : Byte → Bool} {u : Bytes} {x : Byte} (hx : p x = false) (t : Bytes) :
    (t ++ x :: u).takeWhile p = t.takeWhile p := by
  induction t with
  | nil => simp [hx]
  | cons c t ih =>
    cases h : p c with
    | true => simp [h, ih]
    | false => simp [h]

theorem dropWhile_append_stop {p : Byte → Bool} {u : Bytes} {x : Byte} (hx : p x = false) (t : Bytes) :
    (t ++ x :: u).dropWhile p = t.dropWhile p ++ x :: u := by
  induction t with
  | nil => simp [hx]
  | cons c t ih =>
    cases h : p c with
    | true => simp [h, ih]
    | false => simp [h]

theorem nextLower_append_stop {u : Bytes} {x : Byte} (hx : isLower x = false) (t : Bytes) :
    nextLower (t ++ x :: u) = nextLower t := by
  cases t with
  | nil => simp [nextLower, hx]
  | cons c t => rfl

theorem camelLoop_append_stop {u : Bytes} {x : Byte} (hx : isLower x = false) (t : Bytes) :
    camelLoop (t ++ x :: u) = camelLoop t ++ camelLoop (x :: u) := by
  induction t using camel_induction with
  | nil => rw [camelLoop_nil]; rfl
  | skip rest h ih =>
    rw [List.cons_append, camelLoop_skip ⟨rfl, by rw [nextLower_append_stop hx]; exact h⟩, camelLoop_skip ⟨rfl, h⟩, ih]
  | dot rest ih => rw [List.cons_append, camelLoop_dot, camelLoop_dot, ih]
  | digit c rest h ih => rw [List.cons_append, camelLoop_digit h, camelLoop_digit h, ih]; rfl
  | word c rest h1 h2 h3 ih =>
    rw [List.cons_append, camelLoop_word (by rw [nextLower_append_stop hx]; exact h1) h2 h3, camelLoop_word h1 h2 h3,
      takeWhile_append_stop hx, dropWhile_append_stop hx, ih]
    simp

theorem camelLoop_map : camelLoop (ascii "Map") = ascii "Map" := by
  simp (decide := true) [ascii, camelLoop, isLower, List.takeWhile, List.dropWhile]

theorem camelCase_map (s : Bytes) : camelCase (s ++ ascii "Map") = camelCase s ++ ascii "Map" := by
  cases s with
  | nil => simp (decide := true) [ascii, camelCase, camelLoop, isLower, List.takeWhile, List.dropWhile]
  | cons c rest =>
    have e : ascii "Map" = 0x4D#8 :: [0x61#8, 0x70#8] := by decide
    have h1 : camelLoop (rest ++ ascii "Map") = camelLoop rest ++ ascii "Map" := by
      rw [e, camelLoop_append_stop (by decide), ← e, camelLoop_map]
    have h2 : camelLoop (c :: rest ++ ascii "Map") = camelLoop (c :: rest) ++ ascii "Map" := by
      rw [e, camelLoop_append_stop (by decide), ← e, camelLoop_map]
    simp only [camelCase, List.cons_append]
    split
    · exact h1
    · exact h2

/-! ## Declared names -/

theorem mapDecls_flatMap (full : Bytes) (fs : List FieldD) :
    (fs.flatMap (Go.mapDecls full)).Perm
      (((fs.filter fun f => f.shape = .map).map fun f => qualify full f.name).map (fun s => camelCase (s ++ ascii "Map")) ++
       ((fs.filter fun f => f.shape = .map).map fun f => qualify full f.name).map
        (fun s => ascii "New" ++ camelCase (s ++ ascii "Map"))) := by
  induction fs with
  | nil => exact .refl _
  | cons f fs ih =>
    by_cases h : f.shape = .map
    · simp only [List.flatMap_cons, Go.mapDecls, h, if_true, List.filter_cons, decide_true, List.map_cons, camelCase_map,
        List.append_assoc] at ih ⊢
      refine List.Perm.cons _ ?_
      refine (List.Perm.cons _ ih).trans ?_
      exact List.perm_middle.symm
    · simp only [List.flatMap_cons, Go.mapDecls, h, if_false, List.filter_cons, decide_false, List.nil_append]
      exact ih

/-- Induction over messages and lists of messages together. -/
theorem msg_induction {P : MsgD → Prop} {Q : List MsgD → Prop}
    (mk : ∀ n fs es ms, Q ms → P (.mk n fs es ms)) (nil : Q []) (cons : ∀ m ms, P m → Q ms → Q (m :: ms)) :
    (∀ m, P m) ∧ (∀ ms, Q ms) := by
  have h : ∀ m, P m := fun m => MsgD.rec (motive_1 := P) (motive_2 := Q) mk nil cons m
  refine ⟨h, fun ms => ?_⟩
  induction ms with
  | nil => exact nil
  | cons m ms ih => exact cons m ms (h m) ih

def newName (s : Bytes) : Bytes := ascii "New" ++ camelCase s
def withMap (s : Bytes) : Bytes := s ++ ascii "Map"

theorem struct_perm :
    (∀ m scope, (Go.structDecls scope m).Perm
      ((m.fullNames scope ++ (m.mapFields scope).map withMap).map camelCase ++
       (m.fullNames scope ++ (m.mapFields scope).map withMap).map newName)) ∧
    (∀ ms scope, (Go.structDeclsAll scope ms).Perm
      ((fullNamesAll scope ms ++ (mapFieldsAll scope ms).map withMap).map camelCase ++
       (fullNamesAll scope ms ++ (mapFieldsAll scope ms).map withMap).map newName)) := by
  apply msg_induction
  · intro n fs es ms ih scope
    have h1 := ih (qualify scope n)
    have h2 := mapDecls_flatMap (qualify scope n) fs
    rw [List.perm_iff_count] at h1 h2 ⊢
    intro x
    have h1 := h1 x
    have h2 := h2 x
    simp only [Go.structDecls, MsgD.fullNames, MsgD.mapFields, List.map_append, List.map_cons, List.map_map,
      List.count_append, List.count_cons, List.count_nil, newName, withMap, Function.comp_def, List.cons_append] at h1 h2 ⊢
    omega
  · intro scope; exact .refl _
  · intro m ms h1 h2 scope
    have h1 := h1 scope
    have h2 := h2 scope
    rw [List.perm_iff_count] at h1 h2 ⊢
    intro x
    have h1 := h1 x
    have h2 := h2 x
    simp only [Go.structDeclsAll, fullNamesAll, mapFieldsAll, List.map_append, List.count_append] at h1 h2 ⊢
    omega

theorem enum_perm (scope : Bytes) (es : List EnumD) :
    (es.flatMap (Go.enumDecls scope)).Perm
      ((es.map fun e => camelCase (qualify scope e.name)) ++
       (es.flatMap fun e => e.values.map fun v => camelCase (qualify scope v))) := by
  induction es with
  | nil => exact .refl _
  | cons e es ih =>
    rw [List.perm_iff_count] at ih ⊢
    intro x
    have ih := ih x
    simp only [List.flatMap_cons, Go.enumDecls, List.map_cons, List.count_append, List.count_cons, List.cons_append] at ih ⊢
    omega

/-- What a file declares, sorted: plain names and constructors. -/
theorem decls_perm (f : FileD) :
    (Go.decls f).Perm (Go.errDecodeNil ::
      ((f.outerEnumNames ++ f.outerValueNames ++ f.messageNames ++ f.mapFieldNames.map withMap).map camelCase ++
       (f.messageNames ++ f.mapFieldNames.map withMap).map newName)) := by
  have key : ∀ (pkg : Bytes) (ms : List MsgD),
      (ms.flatMap (Go.messageDecls pkg)).Perm
        (((ms.flatMap fun m => m.enums.map fun e => (qualify pkg m.name, e)).map fun p => camelCase (qualify p.1 p.2.name)) ++
         ((ms.flatMap fun m => m.enums.map fun e => (qualify pkg m.name, e)).flatMap fun p =>
            p.2.values.map fun v => camelCase (qualify p.1 v)) ++
         ((fullNamesAll pkg ms ++ (mapFieldsAll pkg ms).map withMap).map camelCase ++
          (fullNamesAll pkg ms ++ (mapFieldsAll pkg ms).map withMap).map newName)) := by
    intro pkg ms
    induction ms with
    | nil => exact .refl _
    | cons m ms ih =>
      have h1 := struct_perm.1 m pkg
      have h2 := enum_perm (qualify pkg m.name) m.enums
      rw [List.perm_iff_count] at ih h1 h2 ⊢
      intro x
      have ih := ih x
      have h1 := h1 x
      have h2 := h2 x
      simp only [List.flatMap_cons, Go.messageDecls, fullNamesAll, mapFieldsAll, List.map_append, List.map_map,
        List.flatMap_append, List.flatMap_map, Function.comp_def, List.count_append] at ih h1 h2 ⊢
      omega
  have h1 := enum_perm f.package f.enums
  have h2 := key f.package f.messages
  rw [List.perm_iff_count] at h1 h2 ⊢
  intro x
  have h1 := h1 x
  have h2 := h2 x
  simp only [Go.decls, FileD.outerEnumNames, FileD.outerValueNames, FileD.outerEnums, FileD.messageNames,
    FileD.mapFieldNames, List.map_append, List.map_map, List.flatMap_append, List.flatMap_map, Function.comp_def,
    List.map_flatMap, List.count_append, List.count_cons, List.cons_append] at h1 h2 ⊢
  omega

/-- What a declaration is for. -/
theorem mem_decls (f : FileD) (u : Bytes) : u ∈ Go.decls f ↔ u = Go.errDecodeNil ∨
    (∃ s ∈ f.outerEnumNames ++ f.outerValueNames ++ f.messageNames ++ f.mapFieldNames.map withMap, u = camelCase s) ∨
    (∃ s ∈ f.messageNames ++ f.mapFieldNames.map withMap, u = newName s) := by
  rw [(decls_perm f).mem_iff, List.mem_cons, List.mem_append, List.mem_map, List.mem_map]
  constructor
  · rintro (h | ⟨s, hs, rfl⟩ | ⟨s, hs, rfl⟩)
    · exact .inl h
    · exact .inr (.inl ⟨s, hs, rfl⟩)
    · exact .inr (.inr ⟨s, hs, rfl⟩)
  · rintro (h | ⟨s, hs, rfl⟩ | ⟨s, hs, rfl⟩)
    · exact .inl h
    · exact .inr (.inl ⟨s, hs, rfl⟩)
    · exact .inr (.inr ⟨s, hs, rfl⟩)

/-- The identifiers used for what a field refers to. -/
def refUses (f : FieldD) : List Bytes :=
  match f.ref with
  | .scalar => []
  | .enum full => if f.shape = .many then [(camelCase (Go.slice ++ full)).drop 2] else [camelCase full]
  | .message full => [camelCase full, newName full]

theorem fieldUses_eq (owner : Bytes) (f : FieldD) :
    Go.fieldUses owner f = (if f.shape = .map then
      [camelCase (withMap (qualify owner f.name)), newName (withMap (qualify owner f.name))] else []) ++ refUses f := by
  simp only [Go.fieldUses, refUses, newName, withMap, Go.mapSuffix, camelCase_map, List.append_assoc]
  cases f.ref <;> rfl

theorem uses_mem :
    (∀ m scope u, u ∈ Go.structUses scope m ↔
      (∃ s ∈ m.mapFields scope, u = camelCase (withMap s) ∨ u = newName (withMap s)) ∨
      (∃ fd ∈ m.all.flatMap MsgD.fields, u ∈ refUses fd)) ∧
    (∀ ms scope u, u ∈ Go.structUsesAll scope ms ↔
      (∃ s ∈ mapFieldsAll scope ms, u = camelCase (withMap s) ∨ u = newName (withMap s)) ∨
      (∃ fd ∈ (allOf ms).flatMap MsgD.fields, u ∈ refUses fd)) := by
  apply msg_induction
  · intro n fs es ms ih scope u
    simp only [Go.structUses, List.mem_append, ih, MsgD.mapFields, MsgD.all, List.flatMap_cons, MsgD.fields, List.mem_flatMap,
      fieldUses_eq]
    constructor
    · rintro ((⟨s, hs, h⟩ | ⟨fd, hfd, h⟩) | ⟨fd, hfd, h⟩)
      · exact .inl ⟨s, .inr hs, h⟩
      · exact .inr ⟨fd, .inr hfd, h⟩
      · rcases h with h | h
        · split at h
          · next hm =>
            refine .inl ⟨qualify (qualify scope n) fd.name, .inl ?_, by simpa using h⟩
            exact List.mem_map.mpr ⟨fd, List.mem_filter.mpr ⟨hfd, by simp [hm]⟩, rfl⟩
          · simp at h
        · exact .inr ⟨fd, .inl hfd, h⟩
    · rintro (⟨s, hs | hs, h⟩ | ⟨fd, hfd | hfd, h⟩)
      · obtain ⟨fd, hfd, rfl⟩ := List.mem_map.mp hs
        obtain ⟨h1, h2⟩ := List.mem_filter.mp hfd
        refine .inr ⟨fd, h1, .inl ?_⟩
        rw [if_pos (by simpa using h2)]; simpa using h
      · exact .inl (.inl ⟨s, hs, h⟩)
      · exact .inr ⟨fd, hfd, .inr h⟩
      · exact .inl (.inr ⟨fd, hfd, h⟩)
  · intro scope u; simp [Go.structUsesAll, mapFieldsAll, allOf]
  · intro m ms h1 h2 scope u
    simp only [Go.structUsesAll, mapFieldsAll, allOf, List.mem_append, h1, h2, List.flatMap_append]
    constructor
    · rintro ((⟨s, hs, h⟩ | ⟨fd, hfd, h⟩) | (⟨s, hs, h⟩ | ⟨fd, hfd, h⟩))
      · exact .inl ⟨s, .inl hs, h⟩
      · exact .inr ⟨fd, .inl hfd, h⟩
      · exact .inl ⟨s, .inr hs, h⟩
      · exact .inr ⟨fd, .inr hfd, h⟩
    · rintro (⟨s, hs | hs, h⟩ | ⟨fd, hfd | hfd, h⟩)
      · exact .inl (.inl ⟨s, hs, h⟩)
      · exact .inr (.inl ⟨s, hs, h⟩)
      · exact .inl (.inr ⟨fd, hfd, h⟩)
      · exact .inr (.inr ⟨fd, hfd, h⟩)

/-- The first letter of converted names. -/
theorem camelCase_cons {c : Byte} (rest : Bytes) (hletter : isLower c = true ∨ isUpper c = true) :
    ∃ out, camelCase (c :: rest) = toUpper c :: out := by
  have hc : c ≠ underscore ∧ c ≠ dot ∧ isDigit c = false := by
    revert hletter; revert c; decide
  have hcc : camelCase (c :: rest) = camelLoop (c :: rest) := by simp [camelCase, hc.1]
  have hw := camelLoop_word (c := c) (rest := rest) (fun h => hc.1 h.1) hc.2.1 hc.2.2
  exact ⟨_, hcc.trans hw⟩

theorem qualify_cons (c : Byte) (rest name : Bytes) : qualify (c :: rest) name = c :: (rest ++ dot :: name) := by
  simp [qualify]

theorem nodup_map_of_skeleton {l : List Bytes} (h : (l.map skeleton).Nodup) : (l.map camelCase).Nodup := by
  induction l with
  | nil => exact List.nodup_nil
  | cons a l ih =>
    simp only [List.map_cons, List.nodup_cons, List.mem_map, not_exists, not_and] at h ⊢
    refine ⟨fun x hx he => h.1 x hx ?_, ih h.2⟩
    rw [← skeleton_camelCase x, ← skeleton_camelCase a, he]

theorem nodup_new {l : List Bytes} (h : (l.map camelCase).Nodup) : (l.map newName).Nodup := by
  induction l with
  | nil => exact List.nodup_nil
  | cons a l ih =>
    simp only [List.map_cons, List.nodup_cons, List.mem_map, not_exists, not_and] at h ⊢
    exact ⟨fun x hx he => h.1 x hx (List.append_cancel_left he), ih h.2⟩

/-- Every full name in a file begins with the package. -/
theorem mapped_start (c : Byte) (p : Bytes) :
    (∀ (m : MsgD) (scope : Bytes), (∃ t, scope = c :: (p ++ t)) → ∀ s ∈ m.fullNames scope ++ m.mapFields scope, ∃ t, s = c :: (p ++ t)) ∧
    (∀ (ms : List MsgD) (scope : Bytes), (∃ t, scope = c :: (p ++ t)) → ∀ s ∈ fullNamesAll scope ms ++ mapFieldsAll scope ms, ∃ t, s = c :: (p ++ t)) := by
  have hq : ∀ scope name, (∃ t, scope = c :: (p ++ t)) → ∃ t, qualify scope name = c :: (p ++ t) := by
    rintro _ name ⟨t, rfl⟩
    exact ⟨t ++ dot :: name, by rw [qualify_cons]; simp⟩
  apply msg_induction
  · intro n fs es ms ih scope hs s hm
    have h1 := hq scope n hs
    have h2 := ih _ h1 s
    simp only [MsgD.fullNames, MsgD.mapFields, List.mem_append, List.mem_cons, List.mem_map] at hm h2
    rcases hm with (rfl | hm) | (⟨fd, _, rfl⟩ | hm)
    · exact h1
    · exact h2 (.inl hm)
    · exact hq _ _ h1
    · exact h2 (.inr hm)
  · intro scope hs s hm; simp [fullNamesAll, mapFieldsAll] at hm
  · intro m ms h1 h2 scope hs s hm
    have h1 := h1 scope hs s
    have h2 := h2 scope hs s
    simp only [fullNamesAll, mapFieldsAll, List.mem_append] at hm h1 h2
    rcases hm with (hm | hm) | (hm | hm)
    · exact h1 (.inl hm)
    · exact h2 (.inl hm)
    · exact h1 (.inr hm)
    · exact h2 (.inr hm)

end Package
