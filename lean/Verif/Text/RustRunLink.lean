import Verif.Text.RustRunEncodeMsg
import Verif.Text.RustDeclared
import Verif.Text.GoCheckProgram

/-!
# Running generated Rust code: what the names of the printed program refer to
-/

namespace RustRun

open Utils RustAst RustText
open Text hiding Tok
open Gen (PKind Scalar V Field Schema)
open GoText (FieldD FileD MsgD eraseAll unique_of_nodup findSome?_unique decimal)
open Package (EnumD qualify)
open Package.Rust (Dependencies)

/-! ## The parts of a program -/

/-- The items of a message type. -/
def typeItems (privacy : Bytes) (t : Bytes × List FieldD) : List Item :=
  [.struct (camel t.1) (t.2.map fun f => (visOf privacy, snake f.name, fieldTy f)), encodeImpl t.1 t.2, decodeImpl t.1 t.2]

inductive Part where
  | head (i : Item)
  | enum (e : Bytes × EnumD)
  | type (t : Bytes × List FieldD)

def Part.items (privacy : Bytes) : Part → List Item
  | .head i => [i]
  | .enum e => [enumItem e.1 e.2]
  | .type t => typeItems privacy t

def parts (d : Dependencies) (f : FileD) : List Part :=
  (importItems d).map .head ++ f.enums.map (fun e => .enum (f.package, e)) ++ traitItems.map .head ++ f.messages.flatMap fun m =>
    (match m with | .mk n _ _ es _ => es.map fun e => .enum (qualify f.package n, e)) ++ (m.types f.package).map .type

theorem structItems_types (privacy : Bytes) : ∀ m s, structItems privacy s m = (m.types s).flatMap (typeItems privacy) := by
  intro m
  induction m using MsgD.rec (motive_2 := fun ms => ∀ s, structItemsAll privacy s ms = (GoText.typesAll s ms).flatMap (typeItems privacy)) with
  | mk n e fs es ms ih =>
    intro s
    rw [structItems, MsgD.types, ih]
    simp [List.flatMap_append, typeItems]
  | nil => rename_i s; simp [structItemsAll, GoText.typesAll]
  | cons m ms ihm ih =>
    rename_i s
    obtain ⟨n, e, fs, es, mm⟩ := m
    rw [structItemsAll, GoText.typesAll]
    cases e with
    | true => simpa using ih s
    | false => simp [ihm s, ih s]

theorem flatMap_head (privacy : Bytes) (l : List Item) : (l.map Part.head).flatMap (Part.items privacy) = l := by
  induction l with
  | nil => rfl
  | cons a l ih => simp only [List.map_cons, List.flatMap_cons, ih]; rfl

theorem flatMap_enum (privacy s : Bytes) (l : List EnumD) : (l.map fun e => Part.enum (s, e)).flatMap (Part.items privacy) = l.map (enumItem s) := by
  induction l with
  | nil => rfl
  | cons a l ih => simp only [List.map_cons, List.flatMap_cons, ih]; rfl

theorem program_parts (privacy : Bytes) (d : Dependencies) (f : FileD) : program privacy d f = (parts d f).flatMap (Part.items privacy) := by
  have hm : ∀ m s, messageItems privacy s m = ((match m with | .mk n _ _ es _ => es.map fun e => Part.enum (qualify s n, e)) ++ (m.types s).map .type).flatMap (Part.items privacy) := by
    intro m s
    obtain ⟨n, e, fs, es, ms⟩ := m
    rw [messageItems, structItems_types, List.flatMap_append, flatMap_enum, List.flatMap_map]
    rfl
  have hm' := funext fun m => hm m f.package
  rw [program, parts, hm']
  simp only [List.flatMap_append, flatMap_head, flatMap_enum, List.flatMap_assoc, List.append_assoc]

theorem mem_parts_type {d : Dependencies} {f : FileD} {t : Bytes × List FieldD} : Part.type t ∈ parts d f ↔ t ∈ f.types := by
  simp only [parts, List.mem_append, List.mem_map, List.mem_flatMap, FileD.types]
  constructor
  · rintro (((⟨_, _, h⟩ | ⟨_, _, h⟩) | ⟨_, _, h⟩) | ⟨⟨n, b, fs, es, ms⟩, hm, h⟩)
    · cases h
    · cases h
    · cases h
    · rcases h with h | ⟨t', ht, h⟩
      · obtain ⟨_, _, h⟩ := List.mem_map.mp h; cases h
      · cases h; exact ⟨_, hm, ht⟩
  · rintro ⟨m, hm, ht⟩
    exact .inr ⟨m, hm, .inr ⟨t, ht, rfl⟩⟩

theorem mem_parts_enum {d : Dependencies} {f : FileD} {e : Bytes × EnumD} : Part.enum e ∈ parts d f ↔ e ∈ f.enumTypes := by
  simp only [parts, FileD.enumTypes, List.mem_append, List.mem_map, List.mem_flatMap]
  constructor
  · rintro (((⟨_, _, h⟩ | ⟨x, hx, h⟩) | ⟨_, _, h⟩) | ⟨⟨n, b, fs, es, ms⟩, hm, h⟩)
    · cases h
    · cases h; exact .inl ⟨x, hx, rfl⟩
    · cases h
    · rcases h with h | ⟨t', ht, h⟩
      · obtain ⟨x, hx, h⟩ := List.mem_map.mp h
        cases h
        exact .inr ⟨_, hm, List.mem_map.mpr ⟨x, hx, rfl⟩⟩
      · cases h
  · rintro (⟨x, hx, rfl⟩ | ⟨⟨n, b, fs, es, ms⟩, hm, h⟩)
    · exact .inl (.inl (.inr ⟨x, hx, rfl⟩))
    · obtain ⟨x, hx, rfl⟩ := List.mem_map.mp h
      exact .inr ⟨_, hm, .inl (List.mem_map.mpr ⟨x, hx, rfl⟩)⟩

theorem mem_parts_head {d : Dependencies} {f : FileD} {i : Item} (h : Part.head i ∈ parts d f) : i ∈ importItems d ∨ i ∈ traitItems := by
  simp only [parts, List.mem_append, List.mem_map, List.mem_flatMap] at h
  rcases h with ((⟨x, hx, h⟩ | ⟨x, hx, h⟩) | ⟨x, hx, h⟩) | ⟨⟨n, b, fs, es, ms⟩, hm, h⟩
  · cases h; exact .inl hx
  · cases h
  · cases h; exact .inr hx
  · rcases h with h | ⟨t', ht, h⟩
    · obtain ⟨x, hx, h⟩ := List.mem_map.mp h; cases h
    · cases h

/-! ## What there is -/

section
variable {privacy : Bytes} {d : Dependencies} {f : FileD}

/-- Items of the program. -/
theorem mem_program {i : Item} : i ∈ program privacy d f ↔ (i ∈ importItems d ∨ i ∈ traitItems) ∨ (∃ e ∈ f.enumTypes, i = enumItem e.1 e.2) ∨ ∃ t ∈ f.types, i ∈ typeItems privacy t := by
  rw [program_parts, List.mem_flatMap]
  constructor
  · rintro ⟨p, hp, hi⟩
    cases p with
    | head j => simp only [Part.items, List.mem_singleton] at hi; subst hi; exact .inl (mem_parts_head hp)
    | enum e => simp only [Part.items, List.mem_singleton] at hi; exact .inr (.inl ⟨e, mem_parts_enum.mp hp, hi⟩)
    | type t => exact .inr (.inr ⟨t, mem_parts_type.mp hp, hi⟩)
  · rintro (h | ⟨e, he, rfl⟩ | ⟨t, ht, hi⟩)
    · refine ⟨.head i, ?_, by simp [Part.items]⟩
      simp only [parts, List.mem_append, List.mem_map]
      rcases h with h | h
      · exact .inl (.inl (.inl ⟨i, h, rfl⟩))
      · exact .inl (.inr ⟨i, h, rfl⟩)
    · exact ⟨.enum e, mem_parts_enum.mpr he, by simp [Part.items]⟩
    · exact ⟨.type t, mem_parts_type.mpr ht, hi⟩

theorem mem_traitItems {i : Item} (h : i ∈ traitItems) : ∃ n s, i = .trait n s := by
  simp only [traitItems, List.mem_cons, List.not_mem_nil, or_false] at h
  rcases h with rfl | rfl <;> exact ⟨_, _, rfl⟩

theorem mem_importItems {i : Item} (h : i ∈ importItems d) : (∃ p, i = .use1 p) ∨ ∃ p g, i = .use2 p g := by
  simp only [importItems, List.mem_append, List.mem_cons, List.not_mem_nil, or_false] at h
  rcases h with ((rfl | rfl) | h) | h
  · exact .inl ⟨_, rfl⟩
  · exact .inr ⟨_, _, rfl⟩
  · split at h
    · simp only [List.mem_cons, List.not_mem_nil, or_false] at h
      rcases h with rfl | rfl <;> exact .inl ⟨_, rfl⟩
    · cases h
  · split at h
    · simp only [List.mem_cons, List.not_mem_nil, or_false] at h
      exact .inl ⟨_, h⟩
    · cases h

theorem imported_of {i : Item} (h : i ∈ importItems d) {p : List Ident} (hp : imported [i] p = true) : imported (program privacy d f) p = true := by
  have h1 := (mem_program (privacy := privacy) (f := f) (i := i)).mpr (.inl (.inl h))
  simp only [imported, List.any_eq_true, List.any_cons, List.any_nil, Bool.or_false] at hp ⊢
  exact ⟨i, h1, hp⟩

theorem ready_program : Ready (program privacy d f) := by
  have h : Item.use2 [go!"polyglot_rs"] [go!"DecodingError", go!"Encoder", go!"Decoder", go!"Kind"] ∈ importItems d := by
    simp [importItems]
  exact ⟨imported_of h (by decide +kernel), imported_of h (by decide +kernel), imported_of h (by decide +kernel), imported_of h (by decide +kernel)⟩

/-- The names are distinct. -/
def Distinct (d : Dependencies) (f : FileD) : Prop := (Package.Rust.imports d ++ Package.Rust.decls f.erase).Nodup

theorem nodup_map_ofBytes {l : List Bytes} (h : l.Nodup) : (l.map ofBytes).Nodup := by
  rw [List.Nodup, List.pairwise_map]
  exact h.imp fun hne he => hne (ofBytes_inj he)

theorem declared_nodup (h : Distinct d f) : ((program privacy d f).flatMap Item.declared).Nodup := by
  rw [declared_program]; exact nodup_map_ofBytes h

theorem parts_nodup (h : Distinct d f) : ((parts d f).flatMap fun p => (p.items privacy).flatMap Item.declared).Nodup := by
  have := declared_nodup (privacy := privacy) h
  rw [program_parts, List.flatMap_assoc] at this
  exact this

/-- Types with the same Rust name are the same. -/
theorem types_inj (h : Distinct d f) {t t' : Bytes × List FieldD} (ht : t ∈ f.types) (ht' : t' ∈ f.types) (he : camel t.1 = camel t'.1) : t = t' := by
  have := unique_of_nodup (parts_nodup (privacy := []) h) (a := .type t) (b := .type t') (x := camel t.1) (mem_parts_type.mpr ht) (mem_parts_type.mpr ht')
    (by simp [Part.items, typeItems, Item.declared]) (by simp [Part.items, typeItems, Item.declared, he])
  cases this; rfl

theorem enums_inj (h : Distinct d f) {e e' : Bytes × EnumD} (ht : e ∈ f.enumTypes) (ht' : e' ∈ f.enumTypes)
    (he : camel (qualify e.1 e.2.name) = camel (qualify e'.1 e'.2.name)) : e = e' := by
  have := unique_of_nodup (parts_nodup (privacy := []) h) (a := .enum e) (b := .enum e') (x := camel (qualify e.1 e.2.name)) (mem_parts_enum.mpr ht) (mem_parts_enum.mpr ht')
    (by simp [Part.items, enumItem, Item.declared]) (by simp [Part.items, enumItem, Item.declared, he])
  cases this; rfl

theorem struct_program (h : Distinct d f) {t : Bytes × List FieldD} (ht : t ∈ f.types) :
    findStruct (program privacy d f) (camel t.1) = some (t.2.map fun g => snake g.name) := by
  refine findSome?_unique (a := .struct (camel t.1) (t.2.map fun f => (visOf privacy, snake f.name, fieldTy f))) (mem_program.mpr (.inr (.inr ⟨t, ht, by simp [typeItems]⟩))) (by simp) ?_
  intro b hb y hy
  split at hy
  · rename_i m gs
    rcases mem_program.mp hb with (hb | hb) | ⟨e, _, hb⟩ | ⟨t', ht', hb⟩
    · rcases mem_importItems hb with ⟨_, h⟩ | ⟨_, _, h⟩ <;> cases h
    · obtain ⟨_, _, h⟩ := mem_traitItems hb; cases h
    · cases hb
    · by_cases hm : m = camel t.1
      · subst hm
        simp only [typeItems, List.mem_cons, List.not_mem_nil, or_false, encodeImpl, decodeImpl] at hb
        rcases hb with hb | hb | hb
        · rw [Item.struct.injEq] at hb
          obtain rfl := types_inj h ht ht' hb.1
          rw [if_pos rfl, hb.2, List.map_map] at hy
          exact (Option.some.inj hy).symm
        · cases hb
        · cases hb
      · simp [hm] at hy
  · cases hy

theorem impl_program (h : Distinct d f) {t : Bytes × List FieldD} (ht : t ∈ f.types) {tr : Ident} {sig : Sig} {body : Stmt} (hi : .impl tr (camel t.1) sig body ∈ typeItems privacy t) :
    findImpl (program privacy d f) tr (camel t.1) = some (sig, body) := by
  refine findSome?_unique (a := .impl tr (camel t.1) sig body) (mem_program.mpr (.inr (.inr ⟨t, ht, hi⟩))) (by simp) ?_
  intro b hb y hy
  split at hy
  · rename_i tr' m sig' body'
    rcases mem_program.mp hb with (hb | hb) | ⟨e, _, hb⟩ | ⟨t', ht', hb⟩
    · rcases mem_importItems hb with ⟨_, h⟩ | ⟨_, _, h⟩ <;> cases h
    · obtain ⟨_, _, h⟩ := mem_traitItems hb; cases h
    · cases hb
    · by_cases hm : tr' = tr ∧ m = camel t.1
      · obtain ⟨rfl, rfl⟩ := hm
        simp only [and_self, if_true, Option.some.injEq] at hy
        subst hy
        have hne : ∀ x, typeItems privacy x = [.struct (camel x.1) (x.2.map fun f => (visOf privacy, snake f.name, fieldTy f)), encodeImpl x.1 x.2, decodeImpl x.1 x.2] := fun _ => rfl
        rw [hne] at hb hi
        have hc : camel t.1 = camel t'.1 := by
          simp only [List.mem_cons, List.not_mem_nil, or_false, encodeImpl, decodeImpl, Item.impl.injEq, reduceCtorEq, false_or] at hb
          rcases hb with hb | hb <;> exact hb.2.1
        obtain rfl := types_inj h ht ht' hc
        simp only [List.mem_cons, List.not_mem_nil, or_false, encodeImpl, decodeImpl, Item.impl.injEq, reduceCtorEq, false_or] at hb hi
        rcases hb with hb | hb <;> rcases hi with hi | hi
        · rw [hb.2.2.1, hb.2.2.2, hi.2.2.1, hi.2.2.2]
        · exact absurd (hb.1.symm.trans hi.1) (by decide +kernel)
        · exact absurd (hb.1.symm.trans hi.1) (by decide +kernel)
        · rw [hb.2.2.1, hb.2.2.2, hi.2.2.1, hi.2.2.2]
      · simp [hm] at hy
  · cases hy

theorem mapM_decimal (l : List Bytes) (k : Nat) : ((l.mapIdx fun i v => (ofBytes v, ofBytes (decimal (i + k)))).mapM fun v => GoCheck.decimalValue v.2) = some (List.range' k l.length) := by
  induction l generalizing k with
  | nil => rfl
  | cons a l ih =>
    rw [List.mapIdx_cons, List.mapM_cons]
    have h1 : (l.mapIdx fun i (v : Bytes) => (ofBytes v, ofBytes (decimal (i + 1 + k)))) = l.mapIdx fun i v => (ofBytes v, ofBytes (decimal (i + (k + 1)))) := by
      congr 1; funext i v; rw [Nat.add_assoc, Nat.add_comm 1 k]
    rw [h1, ih (k + 1)]
    simp only [Nat.zero_add, GoCheck.decimalValue_decimal, List.length_cons, List.range'_succ]
    rfl

theorem enum_program (h : Distinct d f) {e : Bytes × EnumD} (he : e ∈ f.enumTypes) :
    findEnum (program privacy d f) (camel (qualify e.1 e.2.name)) = some (List.range e.2.values.length) := by
  have hm : ((e.2.values.mapIdx fun i v => (ofBytes v, ofBytes (decimal i))).mapM fun v => GoCheck.decimalValue v.2) = some (List.range e.2.values.length) := by
    have := mapM_decimal e.2.values 0
    simpa [List.range_eq_range'] using this
  refine findSome?_unique (a := enumItem e.1 e.2) (mem_program.mpr (.inr (.inl ⟨e, he, rfl⟩))) ?_ ?_
  · show (if _ = _ ∧ _ then _ else none) = _
    rw [if_pos ⟨rfl, by decide +kernel⟩]
    exact hm
  · intro b hb y hy
    split at hy
    · rename_i attrs m vs
      rcases mem_program.mp hb with (hb | hb) | ⟨e', he', hb⟩ | ⟨t', ht', hb⟩
      · rcases mem_importItems hb with ⟨_, h⟩ | ⟨_, _, h⟩ <;> cases h
      · obtain ⟨_, _, h⟩ := mem_traitItems hb; cases h
      · split at hy
        · rename_i hc
          cases hb
          obtain rfl := enums_inj h he he' hc.1.symm
          rw [hm] at hy
          simpa using hy.symm
        · cases hy
      · simp only [typeItems, List.mem_cons, List.not_mem_nil, or_false, encodeImpl, decodeImpl, reduceCtorEq] at hb
    · cases hy


/-! ## Names that are used -/

theorem uses_type {g : FieldD} : ∀ (m : MsgD) (s : Bytes), ∀ t ∈ m.types s, g ∈ t.2 → ∀ u ∈ Package.Rust.fieldUses g.erase, u ∈ Package.Rust.structUses m.erase := by
  intro m
  induction m using MsgD.rec (motive_2 := fun ms => ∀ s, ∀ t ∈ GoText.typesAll s ms, g ∈ t.2 → ∀ u ∈ Package.Rust.fieldUses g.erase, u ∈ Package.Rust.structUsesAll (eraseAll ms)) with
  | mk n e fs es ms ih =>
    intro s t ht hg u hu
    rw [MsgD.types] at ht
    rw [MsgD.erase, Package.Rust.structUses]
    rcases List.mem_append.mp ht with ht | ht
    · exact List.mem_append_left _ (ih _ t ht hg u hu)
    · rw [List.mem_singleton] at ht
      subst ht
      exact List.mem_append_right _ (List.mem_flatMap.mpr ⟨g.erase, List.mem_map.mpr ⟨g, hg, rfl⟩, hu⟩)
  | nil => rename_i s t ht hg u hu; rw [GoText.typesAll] at ht; cases ht
  | cons m ms ihm ih =>
    rename_i s t ht hg u hu
    obtain ⟨n, e, fs, es, mm⟩ := m
    rw [GoText.typesAll] at ht
    rw [eraseAll]
    cases e with
    | true => exact ih s t (by simpa using ht) hg u hu
    | false =>
      simp only [Bool.false_eq_true, if_false] at ht ⊢
      rw [Package.Rust.structUsesAll]
      rcases List.mem_append.mp ht with ht | ht
      · exact List.mem_append_left _ (ihm s t ht hg u hu)
      · exact List.mem_append_right _ (ih s t ht hg u hu)

theorem structUsesAll_mem {u : Bytes} : ∀ ms : List Package.MsgD, ∀ m ∈ ms, u ∈ Package.Rust.structUses m → u ∈ Package.Rust.structUsesAll ms
  | [], m, h, _ => by cases h
  | x :: xs, m, h, hu => by
    rw [Package.Rust.structUsesAll]
    rcases List.mem_cons.mp h with rfl | h
    · exact List.mem_append_left _ hu
    · exact List.mem_append_right _ (structUsesAll_mem xs m h hu)

theorem uses_field {t : Bytes × List FieldD} (ht : t ∈ f.types) {g : FieldD} (hg : g ∈ t.2) {u : Bytes} (hu : u ∈ Package.Rust.fieldUses g.erase) :
    u ∈ Package.Rust.uses f.erase := by
  obtain ⟨m, hm, ht⟩ := List.mem_flatMap.mp ht
  exact List.mem_append_right _ (structUsesAll_mem _ m.erase (List.mem_map.mpr ⟨m, hm, rfl⟩) (uses_type m _ t ht hg u hu))

/-! ## Fields -/

theorem fieldNames_type {P : List (List Nat) → Prop} : ∀ (m : MsgD) (s : Bytes), (∀ x ∈ m.erase.all, P (Package.Rust.fieldNames x)) →
    ∀ t ∈ m.types s, P (t.2.map fun g => snakeCase (g.name.map BitVec.toNat)) := by
  intro m
  induction m using MsgD.rec (motive_2 := fun ms => ∀ s, (∀ x ∈ Package.allOf (eraseAll ms), P (Package.Rust.fieldNames x)) →
      ∀ t ∈ GoText.typesAll s ms, P (t.2.map fun g => snakeCase (g.name.map BitVec.toNat))) with
  | mk n e fs es ms ih =>
    intro s hP t ht
    rw [MsgD.types] at ht
    rw [MsgD.erase, Package.MsgD.all] at hP
    rcases List.mem_append.mp ht with ht | ht
    · exact ih _ (fun x hx => hP x (List.mem_cons_of_mem _ hx)) t ht
    · rw [List.mem_singleton] at ht
      subst ht
      have := hP _ (List.mem_cons_self ..)
      simp only [Package.Rust.fieldNames, Package.MsgD.fields, List.map_map] at this
      exact this
  | nil => rename_i s _ t ht; rw [GoText.typesAll] at ht; cases ht
  | cons m ms ihm ih =>
    rename_i s hP t ht
    obtain ⟨n, e, fs, es, mm⟩ := m
    rw [GoText.typesAll] at ht
    rw [eraseAll] at hP
    cases e with
    | true => exact ih s (by simpa using hP) t (by simpa using ht)
    | false =>
      simp only [Bool.false_eq_true, if_false] at ht hP
      rw [Package.allOf] at hP
      rcases List.mem_append.mp ht with ht | ht
      · exact ihm s (fun x hx => hP x (List.mem_append_left _ hx)) t ht
      · exact ih s (fun x hx => hP x (List.mem_append_right _ hx)) t ht

theorem allOf_mem : ∀ ms : List Package.MsgD, ∀ m ∈ ms, ∀ x ∈ m.all, x ∈ Package.allOf ms
  | [], m, h, _, _ => by cases h
  | y :: ys, m, h, x, hx => by
    rw [Package.allOf]
    rcases List.mem_cons.mp h with rfl | h
    · exact List.mem_append_left _ hx
    · exact List.mem_append_right _ (allOf_mem ys m h x hx)

theorem fieldNames_file {P : List (List Nat) → Prop} (h : ∀ m ∈ Package.allOf f.erase.messages, P (Package.Rust.fieldNames m)) :
    ∀ t ∈ f.types, P (t.2.map fun g => snakeCase (g.name.map BitVec.toNat)) := by
  intro t ht
  obtain ⟨m, hm, ht⟩ := List.mem_flatMap.mp ht
  exact fieldNames_type m _ (fun x hx => h x (allOf_mem _ m.erase (List.mem_map.mpr ⟨m, hm, rfl⟩) x hx)) t ht

theorem snakeLoop_lt (s : List Nat) : ∀ out b, (∀ x ∈ s, x < 256) → (∀ x ∈ out, x < 256) → ∀ x ∈ snakeLoop out b s, x < 256 := by
  induction s with
  | nil => intro out b _ ho; exact ho
  | cons c s ih =>
    intro out b hs ho
    have hs' : ∀ x ∈ s, x < 256 := fun x hx => hs x (List.mem_cons_of_mem _ hx)
    have hc := hs c (List.mem_cons_self ..)
    simp only [snakeLoop]
    split
    · refine ih _ _ hs' ?_
      intro x hx
      rcases List.mem_append.mp hx with hx | hx
      · split at hx
        · rcases List.mem_append.mp hx with hx | hx
          · exact ho x hx
          · rw [List.mem_singleton] at hx; omega
        · exact ho x hx
      · rw [List.mem_singleton] at hx; omega
    · refine ih _ _ hs' ?_
      intro x hx
      rcases List.mem_append.mp hx with hx | hx
      · exact ho x hx
      · rw [List.mem_singleton] at hx; omega

theorem snake_inj {a b : Bytes} (h : snake a = snake b) : snakeCase (a.map BitVec.toNat) = snakeCase (b.map BitVec.toNat) := by
  have hb : ∀ s : Bytes, (snakeBytes s).map BitVec.toNat = snakeCase (s.map BitVec.toNat) := by
    intro s
    have hlt : ∀ x ∈ snakeCase (s.map BitVec.toNat), x < 256 := by
      refine snakeLoop_lt _ [] false ?_ (by simp)
      intro x hx
      obtain ⟨c, _, rfl⟩ := List.mem_map.mp hx
      exact c.isLt
    rw [snakeBytes, List.map_map]
    conv => rhs; rw [← List.map_id (snakeCase (s.map BitVec.toNat))]
    refine List.map_congr_left fun x hx => ?_
    simp [Nat.mod_eq_of_lt (hlt x hx)]
  rw [← hb, ← hb, ofBytes_inj h]

/-! ## All of it -/

/-- A file whose printed program can be run: rustc accepts its names (`Package.RustNamesOk`), no type has the name of a type of the
library that the program uses, fields refer to types of the file, and have the kinds that compile. -/
structure Runs (W : Package.Rust.World) (f : FileD) : Prop where
  names : Package.RustNamesOk W f.erase
  reserved : ∀ n ∈ Package.Rust.decls f.erase, n ≠ str!"Vec" ∧ n ≠ str!"HashMap" ∧ n ≠ str!"TryFromPrimitive"
  closed : f.Closed
  supported : f.schema.RustSupported

theorem ctx_program {W : Package.Rust.World} (h : Runs W f) {depth : Nat} (hd : Package.Rust.DependencyAnalysis W depth f.erase = some d) :
    Ctx (program privacy d f) f := by
  obtain ⟨⟨⟨n, d', hd', hdist, huses⟩, hfields⟩, hres, hclosed, hsup⟩ := h
  obtain rfl := dependencies_unique hd hd'
  have himp : ∀ u ∈ Package.Rust.uses f.erase, u ∉ Package.Rust.decls f.erase → u ∈ Package.Rust.imports d := by
    intro u hu hn
    rcases List.mem_append.mp (huses u hu) with h | h
    · exact h
    · exact absurd h hn
  have hmaps : str!"HashMap" ∈ Package.Rust.imports d → d.Maps = true := by
    obtain ⟨a, b⟩ := d
    cases a <;> cases b <;> decide +kernel
  have henums : str!"TryFromPrimitive" ∈ Package.Rust.imports d → d.Enums = true := by
    obtain ⟨a, b⟩ := d
    cases a <;> cases b <;> decide +kernel
  refine ⟨ready_program, ?_, ?_, fun t ht => struct_program hdist ht, ?_, ?_, ?_, ?_, ?_, ?_⟩
  · rw [declares, Bool.eq_false_iff]
    intro hc
    obtain ⟨i, hi, hc⟩ := List.any_eq_true.mp hc
    have hmem : go!"Vec" ∈ ((Package.Rust.imports d ++ Package.Rust.decls f.erase).map ofBytes) := by
      rw [← declared_program privacy]
      refine List.mem_flatMap.mpr ⟨i, hi, ?_⟩
      cases i <;> simp_all [Item.declared]
    obtain ⟨u, hu, he⟩ := List.mem_map.mp hmem
    have hu' : u = str!"Vec" := ofBytes_inj (he.trans (by decide +kernel))
    subst hu'
    rcases List.mem_append.mp hu with hu | hu
    · revert hu
      obtain ⟨a, b⟩ := d
      cases a <;> cases b <;> decide +kernel
    · exact (hres _ hu).1 rfl
  · intro t ht g hg kk hs
    have hM := hmaps (himp _ (uses_field ht hg (by simp [Package.Rust.fieldUses, FieldD.erase, hs]; exact .inl (by decide +kernel))) fun hc => (hres _ hc).2.1 rfl)
    exact imported_of (i := .use1 [go!"std", go!"collections", go!"HashMap"]) (by simp [importItems, hM]) (by decide +kernel)
  · intro t ht
    exact ⟨_, _, rfl, impl_program hdist ht (by simp [typeItems, encodeImpl])⟩
  · intro t ht
    exact ⟨_, _, rfl, impl_program hdist ht (by simp [typeItems, decodeImpl])⟩
  · intro t ht g hg hk v
    have hmem := (hclosed t ht g hg).2 hk
    obtain ⟨e, he, hn⟩ := List.mem_map.mp hmem
    have hlt := List.idxOf_lt_length_of_mem hmem
    have hidx : (f.enumNames)[f.enumNames.idxOf g.type]? = some g.type := by rw [List.getElem?_eq_getElem hlt]; simp
    rw [FileD.enumNames, List.getElem?_map, Option.map_eq_some_iff] at hidx
    obtain ⟨e', he', hn'⟩ := hidx
    have hE : d.Enums = true := by
      refine henums (himp _ ?_ fun hc => (hres _ hc).2.2 rfl)
      refine List.mem_append_left _ ?_
      rw [if_neg]
      · simp; decide +kernel
      · rintro ⟨h1, h2⟩
        rcases List.mem_append.mp he with he | he
        · obtain ⟨x, hx, _⟩ := List.mem_map.mp he
          have h1 : f.enums = [] := h1
          rw [h1] at hx; cases hx
        · obtain ⟨⟨n, b, fs, es, ms⟩, hm, he⟩ := List.mem_flatMap.mp he
          obtain ⟨x, hx, _⟩ := List.mem_map.mp he
          have := h2 _ (List.mem_map.mpr ⟨_, hm, rfl⟩)
          simp only [MsgD.erase, Package.MsgD.enums] at this
          rw [this] at hx; cases hx
    have hi := imported_of (privacy := privacy) (f := f) (d := d) (i := .use1 [go!"num_enum", go!"TryFromPrimitive"]) (p := [go!"num_enum", go!"TryFromPrimitive"])
      (by simp [importItems, hE]) (by decide +kernel)
    rw [tryFrom, if_pos hi, ← hn', enum_program hdist (List.mem_of_getElem? he'), Option.map_some]
    have hr : f.ref .enum (qualify e'.1 e'.2.name) = f.enumNames.idxOf g.type := by rw [FileD.ref, if_pos rfl, hn']
    have hs : (f.schema.enums[f.enumNames.idxOf g.type]?).getD 0 = e'.2.values.length := by
      simp only [FileD.schema, FileD.enumNames, List.getElem?_map, he', Option.map_some, Option.getD_some]
    rw [RustGen.try_from, hr, hs, RustGen.discriminants]
    by_cases hc : v.toNat ∈ List.range e'.2.values.length
    · rw [if_pos hc, if_pos hc]; rfl
    · rw [if_neg hc, if_neg hc]; rfl
  · intro t ht g hg hk
    have hm := (hclosed t ht g hg).1 hk
    have hr : f.ref .message g.type = (f.types.map (·.1)).idxOf g.type := by rw [FileD.ref, if_neg (by decide)]
    rw [hr]
    have hlt := List.idxOf_lt_length_of_mem hm
    have h1 : (f.types.map (·.1))[(f.types.map (·.1)).idxOf g.type]? = some g.type := by
      rw [List.getElem?_eq_getElem hlt]; simp
    rw [List.getElem?_map] at h1
    obtain ⟨t', h2, h3⟩ := Option.map_eq_some_iff.mp h1
    exact ⟨t', h2, h3⟩
  · intro t ht
    have := fieldNames_file (P := List.Nodup) (fun m hm => (hfields m hm).1) t ht
    rw [List.Nodup, List.pairwise_map] at this ⊢
    exact this.imp fun hne he => hne (snake_inj he)
  · intro t ht g hg
    exact hsup (t.2.map (FieldD.toField f)) (List.mem_map.mpr ⟨t, ht, rfl⟩) _ (List.mem_map.mpr ⟨g, hg, rfl⟩)

end
end RustRun
