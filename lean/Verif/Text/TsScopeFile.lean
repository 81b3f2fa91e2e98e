import Verif.Text.TsScope
import Verif.Text.RustReads

/-!
# Scoping of a generated TypeScript file

The items of a file, where the names that the code uses come from, and when the whole file is well scoped.
-/

namespace TsAst

open Text hiding Tok

/-- What the items of a file declare: imports, enums and classes. -/
theorem declared_perm (is : List Item) :
    (is.flatMap Item.declared).Perm (is.flatMap Item.imports ++ (is.flatMap Item.enums).map (·.1) ++ (is.flatMap Item.classes).map (·.name)) := by
  induction is with
  | nil => exact .refl _
  | cons i is ih =>
    simp only [List.flatMap_cons, List.map_append]
    cases i with
    | import1 ns p =>
      simpa [Item.declared, Item.imports, Item.enums, Item.classes] using ih.append_left ns
    | enum n vs =>
      have e : (Item.enum n vs).declared = [n] := rfl
      simp only [e, Item.imports, Item.enums, Item.classes, List.nil_append, List.map_cons, List.map_nil, List.singleton_append, List.cons_append]
      refine (List.Perm.cons n ih).trans ?_
      rw [List.append_assoc, List.append_assoc, List.cons_append]
      exact List.perm_middle.symm
    | cls n ms =>
      have e : (Item.cls n ms).declared = [n] := rfl
      simp only [e, Item.imports, Item.enums, Item.classes, List.nil_append, List.map_cons, List.map_nil, List.singleton_append, List.cons_append]
      exact (List.Perm.cons n ih).trans List.perm_middle.symm

theorem types_perm (is : List Item) :
    (is.flatMap Item.types).Perm ((is.flatMap Item.enums).map (·.1) ++ (is.flatMap Item.classes).map (·.name)) := by
  induction is with
  | nil => exact .refl _
  | cons i is ih =>
    simp only [List.flatMap_cons, List.map_append]
    cases i with
    | import1 ns p => simpa [Item.types, Item.enums, Item.classes] using ih
    | enum n vs =>
      have e : (Item.enum n vs).types = [n] := rfl
      simp only [e, Item.enums, Item.classes, List.nil_append, List.map_cons, List.map_nil, List.singleton_append, List.cons_append]
      exact List.Perm.cons n ih
    | cls n ms =>
      have e : (Item.cls n ms).types = [n] := rfl
      simp only [e, Item.enums, Item.classes, List.nil_append, List.map_cons, List.map_nil, List.singleton_append, List.cons_append]
      exact (List.Perm.cons n ih).trans List.perm_middle.symm

end TsAst

namespace TsText

open Utils Text TsAst
open Gen (PKind)
open GoText (FieldD MsgD FileD IsIdent IsDotted decimal)
open Package (EnumD qualify)
open RustText (FieldWf MsgWf FileWf)

/-! ## The items of a file -/

theorem items_struct : ∀ m s, ∀ i ∈ structItems s m, ∃ t ∈ MsgD.types s m, i = classItem t.1 t.2 := by
  intro m
  induction m using MsgD.rec (motive_2 := fun ms => ∀ s, ∀ i ∈ structItemsAll s ms, ∃ t ∈ GoText.typesAll s ms, i = classItem t.1 t.2) with
  | mk n e fs es ms ih =>
    intro s i hi
    rw [structItems] at hi
    rw [MsgD.types]
    rcases List.mem_append.mp hi with hi | hi
    · obtain ⟨t, ht, rfl⟩ := ih _ i hi
      exact ⟨t, List.mem_append_left _ ht, rfl⟩
    · rw [List.mem_singleton] at hi
      exact ⟨_, List.mem_append_right _ (List.mem_singleton.mpr rfl), hi⟩
  | nil => rename_i s i hi; simp [structItemsAll] at hi
  | cons m ms ihm ih =>
    rename_i s i hi
    obtain ⟨n, e, fs, es, mm⟩ := m
    rw [structItemsAll] at hi
    rw [GoText.typesAll]
    rcases List.mem_append.mp hi with hi | hi
    · cases e with
      | true => simp at hi
      | false =>
        obtain ⟨t, ht, rfl⟩ := ihm _ i (by simpa using hi)
        exact ⟨t, List.mem_append_left _ (by simpa using ht), rfl⟩
    · obtain ⟨t, ht, rfl⟩ := ih _ i hi
      exact ⟨t, List.mem_append_right _ ht, rfl⟩

theorem items_program {deps : List Bytes} {f : FileD} {i : Item} (hi : i ∈ program deps f) :
    i = .import1 (deps.map ofBytes) go!"polyglot" ∨ (∃ e ∈ f.enumTypes, i = enumItem e.1 e.2) ∨ ∃ t ∈ f.types, i = classItem t.1 t.2 := by
  rw [program, List.mem_append, List.mem_cons] at hi
  rcases hi with (hi | hi) | hi
  · exact .inl hi
  · obtain ⟨e, he, rfl⟩ := List.mem_map.mp hi
    exact .inr (.inl ⟨(f.package, e), List.mem_append_left _ (List.mem_map_of_mem he), rfl⟩)
  · obtain ⟨m, hm, hi⟩ := List.mem_flatMap.mp hi
    obtain ⟨n, b, fs, es, ms⟩ := m
    rw [messageItems] at hi
    rcases List.mem_append.mp hi with hi | hi
    · obtain ⟨e, he, rfl⟩ := List.mem_map.mp hi
      exact .inr (.inl ⟨(qualify f.package n, e), List.mem_append_right _ (List.mem_flatMap.mpr ⟨_, hm, List.mem_map_of_mem he⟩), rfl⟩)
    · obtain ⟨t, ht, rfl⟩ := items_struct _ _ i hi
      exact .inr (.inr ⟨t, List.mem_flatMap.mpr ⟨_, hm, ht⟩, rfl⟩)

/-! ## Where the names come from -/

theorem encoder_lut (k : PKind) (h : k ≠ .message) (hg : k ≠ .group) : ∃ n ∈ TsGen.lut (TsGen.encodeLUT k), encoder k = ofBytes (nameBytes n) := by
  cases k <;> first
    | exact absurd rfl h
    | exact absurd rfl hg
    | exact ⟨_, List.mem_singleton.mpr rfl, by decide +kernel⟩

theorem decoder_lut (k : PKind) (h : k ≠ .message) (hg : k ≠ .group) : ∃ n ∈ TsGen.lut (TsGen.decodeLUT k), decoder k = ofBytes (nameBytes n) := by
  cases k <;> first
    | exact absurd rfl h
    | exact absurd rfl hg
    | exact ⟨_, List.mem_singleton.mpr rfl, by decide +kernel⟩

theorem key_ne {kk : PKind} (h : GoText.IsKey kk) : kk ≠ .message ∧ kk ≠ .group := by
  constructor <;> rintro rfl <;> exact absurd h (by decide)

/-- The names that the code for a field uses: `Map`, the class of a message, and what the generator records. -/
theorem uses_from {f : FieldD} (h : FieldWf f) (g : FileD) {ns : List String} (hd : TsGen.depsField (f.toField g) = some ns) {v : Ident} (hv : v ∈ uses f) :
    v = go!"Map" ∨ (f.kind = .message ∧ v = camel f.type) ∨ ∃ n ∈ ns, v = ofBytes (nameBytes n) := by
  have hg := h.kind
  obtain ⟨nm, s, k, t⟩ := f
  cases s with
  | one r =>
    rw [show TsGen.depsField (FieldD.toField g ⟨nm, .one r, k, t⟩) = some (TsGen.lut (TsGen.encodeLUT k) ++ TsGen.lut (TsGen.decodeLUT k) ++
        (if k = .enum then ["decodeUint32"] else [])) from if_neg hg] at hd
    cases hd
    by_cases hk : k = .message
    · subst hk
      simp only [uses, if_pos, List.mem_singleton] at hv
      exact .inr (.inl ⟨rfl, hv⟩)
    · simp only [uses, if_neg hk, List.mem_cons, List.not_mem_nil, or_false] at hv
      right; right
      rcases hv with rfl | rfl
      · obtain ⟨n, hn, he⟩ := encoder_lut k hk hg
        exact ⟨n, by simp [hn], he⟩
      · obtain ⟨n, hn, he⟩ := decoder_lut k hk hg
        exact ⟨n, by simp [hn], he⟩
  | many =>
    rw [show TsGen.depsField (FieldD.toField g ⟨nm, .many, k, t⟩) = (TsGen.depsDecodeSlice k).map (TsGen.depsEncodeSlice k ++ ·) from rfl, Option.map_eq_some_iff] at hd
    obtain ⟨d, hd, rfl⟩ := hd
    simp only [TsGen.depsDecodeSlice] at hd
    split at hd
    · cases hd
      simp only [uses, List.mem_append, List.mem_cons, List.not_mem_nil, or_false] at hv
      rcases hv with (rfl | rfl | rfl) | hv
      · exact .inr (.inr ⟨"encodeArray", by unfold TsGen.depsEncodeSlice; split <;> simp, by decide +kernel⟩)
      · exact .inr (.inr ⟨"decodeArray", by simp, by decide +kernel⟩)
      · exact .inr (.inr ⟨"Kind", by simp, by decide +kernel⟩)
      · by_cases hk : k = .message
        · subst hk
          simp only [if_pos, List.mem_singleton] at hv
          exact .inr (.inl ⟨rfl, hv⟩)
        · simp only [if_neg hk, List.mem_cons, List.not_mem_nil, or_false] at hv
          right; right
          rcases hv with rfl | rfl
          · obtain ⟨n, hn, he⟩ := encoder_lut k hk hg
            exact ⟨n, by simp [TsGen.depsEncodeSlice, hn], he⟩
          · obtain ⟨n, hn, he⟩ := decoder_lut k hk hg
            exact ⟨n, by simp [hn], he⟩
    · cases hd
  | map kk =>
    obtain ⟨hkm, hkg⟩ := key_ne (h.key kk rfl)
    rw [show TsGen.depsField (FieldD.toField g ⟨nm, .map kk, k, t⟩) = (TsGen.depsEncodeMap kk k).map (· ++ TsGen.depsDecodeMap kk k) from rfl, Option.map_eq_some_iff] at hd
    obtain ⟨d, hd, rfl⟩ := hd
    simp only [TsGen.depsEncodeMap] at hd
    split at hd
    · cases hd
      simp only [uses, List.mem_append, List.mem_cons, List.not_mem_nil, or_false] at hv
      rcases hv with (rfl | rfl | rfl | rfl | rfl | rfl) | hv
      · exact .inr (.inr ⟨"encodeMap", by simp, by decide +kernel⟩)
      · exact .inr (.inr ⟨"decodeMap", by simp [TsGen.depsDecodeMap], by decide +kernel⟩)
      · exact .inr (.inr ⟨"Kind", by simp, by decide +kernel⟩)
      · exact .inl rfl
      · obtain ⟨n, hn, he⟩ := encoder_lut kk hkm hkg
        exact .inr (.inr ⟨n, by simp [hn], he⟩)
      · obtain ⟨n, hn, he⟩ := decoder_lut kk hkm hkg
        exact .inr (.inr ⟨n, by simp [TsGen.depsDecodeMap, hn], he⟩)
      · by_cases hk : k = .message
        · subst hk
          simp only [if_pos, List.mem_singleton] at hv
          exact .inr (.inl ⟨rfl, hv⟩)
        · simp only [if_neg hk, List.mem_cons, List.not_mem_nil, or_false] at hv
          right; right
          rcases hv with rfl | rfl
          · obtain ⟨n, hn, he⟩ := encoder_lut k hk hg
            exact ⟨n, by simp [hn], he⟩
          · obtain ⟨n, hn, he⟩ := decoder_lut k hk hg
            exact ⟨n, by simp [TsGen.depsDecodeMap, hn], he⟩
    · cases hd

/-! ## Upper and lower case -/

def startsUpper : Ident → Bool
  | .byte c :: _ => isUpper c
  | _ => false

theorem camel_upper {s : Bytes} (h : IsDotted s) : startsUpper (camel s) = true := by
  obtain ⟨c, cs, rfl, hc⟩ := h.head
  obtain ⟨out, ho⟩ := Package.camelCase_cons cs hc
  rw [camel, ho]
  exact GoText.toUpper_upper c hc

theorem flip_lower : ∀ c : Byte, (isLower c = true ∨ isUpper c = true) → isUpper (if isUpper c then c ^^^ 0x20 else c) = false := by decide +kernel

theorem not_of_upper {v : Ident} (hv : startsUpper v = true) {l : List Ident} (hl : l.all (fun x => !startsUpper x) = true) : v ∉ l := by
  intro h
  have := List.all_eq_true.mp hl v h
  rw [hv] at this
  cases this

theorem lower_start {s : Bytes} (h : IsIdent s) : ∃ c cs, lower s = .byte c :: cs ∧ isUpper c = false ∧ c ≠ underscore := by
  obtain ⟨c, cs, rfl, hc⟩ := (IsDotted.one h).head
  refine ⟨_, _, rfl, flip_lower c hc, ?_⟩
  have : ∀ c : Byte, (isLower c = true ∨ isUpper c = true) → (if isUpper c then c ^^^ 0x20 else c) ≠ underscore := by decide +kernel
  exact this c hc

theorem locals_lower {f : FieldD} (h : IsIdent f.name) : ∀ v ∈ localsOf f, startsUpper v = false := by
  obtain ⟨c, cs, hc, hu, _⟩ := lower_start h
  intro v hv
  unfold localsOf at hv
  split at hv
  · split at hv
    · simp only [List.mem_cons, List.not_mem_nil, or_false] at hv
      rcases hv with rfl | rfl <;> simp [temp, hc, startsUpper, hu]
    · simp only [List.mem_cons, List.not_mem_nil, or_false] at hv
      rcases hv with rfl; simp [temp, hc, startsUpper, hu]
  · simp only [List.mem_cons, List.not_mem_nil, or_false] at hv
    rcases hv with rfl | rfl <;> simp [temp, hc, startsUpper, hu]

/-! ## Files whose names keep clear of each other -/

/-- The names that the generator may import. -/
def library : List Ident := known.map fun n => ofBytes (nameBytes n)

/-- Names that variables of `decode` must not have: its parameter, the variables of its loops, and the names of the package. -/
def taken : List Ident := go!"buf" :: inner ++ library

theorem library_free : ∀ v ∈ library, v ∉ inner ∧ v ∉ [go!"encoded", go!"decoded", go!"buf"] := by
  have h : library.all (fun v => decide (v ∉ inner ∧ v ∉ [go!"encoded", go!"decoded", go!"buf"])) = true := by decide +kernel
  intro v hv
  exact of_decide_eq_true (List.all_eq_true.mp h v hv)

/-- A file whose names keep clear of each other. -/
structure Distinct (names : List String) (f : FileD) : Prop where
  /-- the names of the file: imports, enums and classes -/
  file : (names.map (fun n => ofBytes (nameBytes n)) ++ (f.enumTypes.map enumOf).map (·.1) ++ (f.types.map classOf).map (·.name)).Nodup
  /-- the values of an enum -/
  values : ∀ e ∈ f.enumTypes, ((enumOf e).2.map (·.1)).Nodup
  /-- the properties of a class and its method -/
  members : ∀ t ∈ f.types, (go!"encode" :: (classOf t).getters).Nodup
  /-- the variables of `decode` -/
  locals : ∀ t ∈ f.types, (classOf t).decodes.Nodup ∧ ∀ v ∈ (classOf t).decodes, v ∉ taken

theorem members_nodup {fs : List FieldD} (hw : ∀ f ∈ fs, IsIdent f.name) (h : (go!"encode" :: fs.map fun f => lower f.name).Nodup) :
    ((fs.flatMap fun f : FieldD => [go!"_" ++ lower f.name, lower f.name]) ++ [go!"encode"]).Nodup := by
  rw [List.nodup_cons] at h
  obtain ⟨he, hn⟩ := h
  have hmem : ∀ (l : List FieldD) v, v ∈ (l.flatMap fun f : FieldD => [go!"_" ++ lower f.name, lower f.name]) ↔
      (∃ f ∈ l, v = go!"_" ++ lower f.name) ∨ ∃ f ∈ l, v = lower f.name := by
    intro l v
    simp only [List.mem_flatMap, List.mem_cons, List.not_mem_nil, or_false]
    constructor
    · rintro ⟨f, hf, h | h⟩
      · exact .inl ⟨f, hf, h⟩
      · exact .inr ⟨f, hf, h⟩
    · rintro (⟨f, hf, h⟩ | ⟨f, hf, h⟩)
      · exact ⟨f, hf, .inl h⟩
      · exact ⟨f, hf, .inr h⟩
  have hne : ∀ f ∈ fs, ∀ v, lower f.name ≠ go!"_" ++ v := by
    intro f hf v hc
    obtain ⟨c, cs, e, _, hu⟩ := lower_start (hw f hf)
    rw [e] at hc
    have : (Sym.byte c) = .byte underscore := (List.cons.inj hc).1
    exact hu (by injection this)
  refine List.nodup_append.mpr ⟨?_, by simp, ?_⟩
  · clear he
    induction fs with
    | nil => exact List.nodup_nil
    | cons f fs ih =>
      rw [List.map_cons, List.nodup_cons] at hn
      rw [List.flatMap_cons]
      refine List.nodup_append.mpr ⟨?_, ih (fun g hg => hw g (List.mem_cons_of_mem _ hg)) hn.2 (fun g hg => hne g (List.mem_cons_of_mem _ hg)), ?_⟩
      · simp only [List.nodup_cons, List.mem_singleton, List.not_mem_nil, not_false_eq_true, List.nodup_nil, and_true]
        exact fun hc => hne f (List.mem_cons_self ..) _ hc.symm
      · intro a ha b hb hab
        subst hab
        simp only [List.mem_cons, List.not_mem_nil, or_false] at ha
        rcases (hmem fs a).mp hb with ⟨g, hg, e⟩ | ⟨g, hg, e⟩
        · rcases ha with ha | ha
          · exact hn.1 (List.mem_map.mpr ⟨g, hg, (List.append_cancel_left (ha.symm.trans e)).symm⟩)
          · exact hne f (List.mem_cons_self ..) _ (ha.symm.trans e)
        · rcases ha with ha | ha
          · exact hne g (List.mem_cons_of_mem _ hg) _ (e.symm.trans ha)
          · exact hn.1 (List.mem_map.mpr ⟨g, hg, e.symm.trans ha⟩)
  · intro a ha b hb hab
    rw [List.mem_singleton] at hb
    subst hab
    subst hb
    rcases (hmem fs _).mp ha with ⟨g, hg, e⟩ | ⟨g, hg, e⟩
    · have : ∀ v, go!"encode" ≠ go!"_" ++ v := fun v hc => absurd (List.cons.inj hc).1 (by decide)
      exact this _ e
    · exact he (List.mem_map.mpr ⟨g, hg, e.symm⟩)

theorem program_scoped {before : List FileD} {f : FileD} (h : FileWf f) (hc : f.Closed) {names : List String} (hn : Imports before f names)
    (himp : ∀ t ∈ f.types, ∀ x ∈ t.2, ∀ ns, TsGen.depsField (x.toField f) = some ns → ∀ n ∈ ns, n ∈ names)
    (hd : Distinct names f) : Scoped (program (names.map nameBytes) f) := by
  have hknown : ∀ n ∈ names, ofBytes (nameBytes n) ∈ library := by
    obtain ⟨out, h1, h2⟩ := hn
    exact fun n hn => List.mem_map.mpr ⟨n, tsImports_known _ [] out (by simp) h1 names (List.mem_of_getLast? h2) n hn, rfl⟩
  have hp := declared_perm (program (names.map nameBytes) f)
  have ht := types_perm (program (names.map nameBytes) f)
  rw [imports_program, enums_program, classes_program, List.map_map] at hp
  rw [enums_program, classes_program] at ht
  refine ⟨hp.nodup_iff.mpr hd.file, ?_⟩
  generalize hD : (program (names.map nameBytes) f).flatMap Item.declared = D at hp
  generalize hT : (program (names.map nameBytes) f).flatMap Item.types = T at ht
  have hb : ∀ t ∈ builtin, t ∈ T ++ builtin := fun t ht => List.mem_append_right _ ht
  have henv : ∀ v, v ∈ D ∨ v = go!"Map" → lookup [(D, D), ([go!"Map"], [go!"Map"])] v = true := by
    intro v hv
    by_cases hvD : v ∈ D
    · exact lookup_here hvD hvD
    · rw [lookup_skip hvD]
      rcases hv with hv | rfl
      · exact absurd hv hvD
      · exact lookup_here (by simp) (by simp)
  have hlib : ∀ n ∈ names, ofBytes (nameBytes n) ∈ D := fun n hn' => hp.mem_iff.mpr (by
    refine List.mem_append_left _ (List.mem_append_left _ ?_)
    exact List.mem_map.mpr ⟨n, hn', rfl⟩)
  have hcls : ∀ t ∈ f.types, camel t.1 ∈ D ∧ camel t.1 ∈ T := fun t ht' => by
    have : camel t.1 ∈ (f.types.map classOf).map (·.name) := List.mem_map.mpr ⟨classOf t, List.mem_map_of_mem ht', rfl⟩
    exact ⟨hp.mem_iff.mpr (List.mem_append_right _ this), ht.mem_iff.mpr (List.mem_append_right _ this)⟩
  have henum : ∀ e ∈ f.enumTypes, camel (qualify e.1 e.2.name) ∈ T := fun e he =>
    ht.mem_iff.mpr (List.mem_append_left _ (List.mem_map.mpr ⟨enumOf e, List.mem_map_of_mem he, rfl⟩))
  have hupper : ∀ v : Ident, startsUpper v = true → v ∉ inner ∧ v ∉ [go!"encoded", go!"decoded", go!"buf"] := fun v hv =>
    ⟨not_of_upper hv (by decide +kernel), not_of_upper hv (by decide +kernel)⟩
  intro i hi
  rcases items_program hi with rfl | ⟨e, he, rfl⟩ | ⟨t, ht', rfl⟩
  · rfl
  · exact decide_eq_true (hd.values e he)
  · have hwf := h.typeWf ht'
    have hfin : ∀ x ∈ t.2, Finds (T ++ builtin) [(D, D), ([go!"Map"], [go!"Map"])] x := by
      intro x hx
      have hxw := file_fields h t ht' x hx
      obtain ⟨ns, hns⟩ := depsField_some hxw f
      refine ⟨fun v hv => ?_, fun hk => ?_⟩
      · rcases uses_from hxw f hns hv with rfl | ⟨hk, rfl⟩ | ⟨n, hn', rfl⟩
        · exact ⟨henv _ (.inr rfl), by decide +kernel, by decide +kernel⟩
        · obtain ⟨u, hu, he⟩ := List.mem_map.mp ((hc t ht' x hx).1 hk)
          refine ⟨henv _ (.inl (he ▸ (hcls u hu).1)), hupper _ (camel_upper (hxw.type (.inl hk)))⟩
        · have hm := himp t ht' x hx ns hns n hn'
          exact ⟨henv _ (.inl (hlib n hm)), library_free _ (hknown n hm)⟩
      · rcases hk with hk | hk
        · obtain ⟨u, hu, he⟩ := List.mem_map.mp ((hc t ht' x hx).1 hk)
          exact List.mem_append_left _ (he ▸ (hcls u hu).2)
        · obtain ⟨e, he, hx'⟩ := List.mem_map.mp ((hc t ht' x hx).2 hk)
          exact List.mem_append_left _ (hx' ▸ henum e he)
    have hup := camel_upper hwf.name
    obtain ⟨hlo, hta⟩ := hd.locals t ht'
    have hbuf : go!"buf" ∉ (classOf t).decodes := fun hx => hta _ hx (List.mem_cons_self ..)
    obtain ⟨full, fs⟩ := t
    refine class_scoped ⟨fun x hx => ⟨hfin x hx, (file_fields h _ ht' x hx).kind⟩,
      ⟨henv _ (.inl (hcls _ ht').1), List.mem_append_left _ (hcls _ ht').2, (hupper _ hup).1, fun hx => (hupper _ hup).2 (by simp [hx])⟩,
      members_nodup (fun x hx => (file_fields h _ ht' x hx).name) (hd.members _ ht'), List.nodup_cons.mpr ⟨hbuf, hlo⟩,
      fun v hv hx => hta v hv (List.mem_cons_of_mem _ (List.mem_append_left _ hx)), fun v hv => ?_⟩ hb
    have hvl : startsUpper v = false := by
      rcases List.mem_cons.mp hv with rfl | hv
      · rfl
      · obtain ⟨x, hx, hv⟩ := List.mem_flatMap.mp hv
        refine locals_lower (file_fields h _ ht' x ?_).name v hv
        simp only [List.mem_append, List.mem_filter] at hx
        rcases hx with (hx | hx) | hx <;> exact hx.1
    refine ⟨fun hx => (by rw [hx, hup] at hvl; cases hvl), fun x hx hu => ?_⟩
    have hxw := file_fields h _ ht' x hx
    obtain ⟨ns, hns⟩ := depsField_some hxw f
    rcases uses_from hxw f hns hu with rfl | ⟨hk, rfl⟩ | ⟨n, hn', rfl⟩
    · revert hvl; decide +kernel
    · rw [camel_upper (hxw.type (.inl hk))] at hvl; cases hvl
    · exact hta _ hv (List.mem_cons_of_mem _ (List.mem_append_right _ (hknown n (himp _ ht' x hx ns hns n hn'))))

/-! ## What scoping needs -/

theorem classItem_mem {deps : List Bytes} {f : FileD} {t : Bytes × List FieldD} (ht : t ∈ f.types) : classItem t.1 t.2 ∈ program deps f := by
  have hm : ∀ m s, ∀ t ∈ MsgD.types s m, classItem t.1 t.2 ∈ structItems s m := by
    intro m
    induction m using MsgD.rec (motive_2 := fun ms => ∀ s, ∀ t ∈ GoText.typesAll s ms, classItem t.1 t.2 ∈ structItemsAll s ms) with
    | mk n e fs es ms ih =>
      intro s t ht
      rw [MsgD.types] at ht
      rw [structItems]
      rcases List.mem_append.mp ht with ht | ht
      · exact List.mem_append_left _ (ih _ t ht)
      · rw [List.mem_singleton] at ht
        subst ht
        exact List.mem_append_right _ (List.mem_singleton.mpr rfl)
    | nil => rename_i s t ht; simp [GoText.typesAll] at ht
    | cons m ms ihm ih =>
      rename_i s t ht
      obtain ⟨n, e, fs, es, mm⟩ := m
      rw [GoText.typesAll] at ht
      rw [structItemsAll]
      rcases List.mem_append.mp ht with ht | ht
      · cases e with
        | true => simp at ht
        | false => exact List.mem_append_left _ (by simpa using ihm _ t (by simpa using ht))
      · exact List.mem_append_right _ (ih _ t ht)
  obtain ⟨m, hm', ht⟩ := List.mem_flatMap.mp ht
  rw [program]
  refine List.mem_append_right _ (List.mem_flatMap.mpr ⟨m, hm', ?_⟩)
  obtain ⟨n, b, fs, es, ms⟩ := m
  rw [messageItems]
  exact List.mem_append_right _ (hm _ _ t ht)

theorem enumItem_mem {deps : List Bytes} {f : FileD} {e : Bytes × EnumD} (he : e ∈ f.enumTypes) : enumItem e.1 e.2 ∈ program deps f := by
  rw [program]
  rcases List.mem_append.mp he with he | he
  · obtain ⟨x, hx, rfl⟩ := List.mem_map.mp he
    exact List.mem_append_left _ (List.mem_cons_of_mem _ (List.mem_map_of_mem hx))
  · obtain ⟨m, hm, he⟩ := List.mem_flatMap.mp he
    obtain ⟨n, b, fs, es, ms⟩ := m
    obtain ⟨x, hx, rfl⟩ := List.mem_map.mp he
    refine List.mem_append_right _ (List.mem_flatMap.mpr ⟨_, hm, ?_⟩)
    rw [messageItems]
    exact List.mem_append_left _ (List.mem_map_of_mem hx)

/-- What a well scoped file needs: names of the file are different, and so are the values of an enum, the properties of a class and
`encode`, and the variables of `decode` and its parameter; the types of fields are declared in the file. -/
theorem scoped_needs {deps : List Bytes} {f : FileD} (h : Scoped (program deps f)) :
    (deps.map ofBytes ++ (f.enumTypes.map enumOf).map (·.1) ++ (f.types.map classOf).map (·.name)).Nodup ∧
    (∀ e ∈ f.enumTypes, ((enumOf e).2.map (·.1)).Nodup) ∧
    ∀ t ∈ f.types, (go!"encode" :: (classOf t).getters).Nodup ∧ (go!"buf" :: (classOf t).decodes).Nodup ∧
      ∀ x ∈ t.2, x.kind = .message ∨ x.kind = .enum →
        camel x.type ∈ (f.enumTypes.map enumOf).map (·.1) ++ (f.types.map classOf).map (·.name) ++ builtin := by
  have hp := declared_perm (program deps f)
  have ht := types_perm (program deps f)
  rw [imports_program, enums_program, classes_program] at hp
  rw [enums_program, classes_program] at ht
  refine ⟨hp.nodup_iff.mp h.1, fun e he => of_decide_eq_true (h.2 _ (enumItem_mem he)), fun t ht' => ?_⟩
  have hc := h.2 _ (classItem_mem (deps := deps) ht')
  generalize (program deps f).flatMap Item.declared = D at hp hc
  generalize (program deps f).flatMap Item.types = T at ht hc
  obtain ⟨full, fs⟩ := t
  rw [classItem, Item.scoped] at hc
  simp only [Bool.and_eq_true, decide_eq_true_eq, List.all_eq_true] at hc
  obtain ⟨⟨hall, hmem⟩, hset⟩ := hc
  have hms : (([Member.ctor (fs.map fun f => (lower f.name, fieldTy f)) (block (fs.map fun f => setField (lower f.name)))] ++
    fs.flatMap (fun f => property (lower f.name) (fieldTy f)) ++ [encodeMethod fs, decodeMethod full fs]).flatMap Member.members) =
      (fs.flatMap fun f => [go!"_" ++ lower f.name, lower f.name]) ++ [go!"encode"] := by
    rw [List.flatMap_append, List.flatMap_append, property_flat Member.members fs (fun f => [go!"_" ++ lower f.name, lower f.name]) fun _ _ => rfl]
    simp [Member.members, encodeMethod, decodeMethod]
  rw [hms] at hmem
  refine ⟨?_, ?_, ?_⟩
  · have hsub : List.Sublist (fs.map fun f => lower f.name) (fs.flatMap fun f => [go!"_" ++ lower f.name, lower f.name]) := by
      clear hset hmem hms hall ht'
      induction fs with
      | nil => exact List.Sublist.refl _
      | cons f fs ih =>
        rw [List.map_cons, List.flatMap_cons]
        exact .cons _ (.cons_cons _ ih)
    have h1 := (hsub.append (List.Sublist.refl [go!"encode"])).nodup hmem
    exact (List.perm_append_comm (l₁ := [go!"encode"])).nodup_iff.mpr h1
  · have hdm := hall (decodeMethod full fs) (by simp)
    have hbody := decode_lets full fs
    have hm : ∃ b, decodeMethod full fs = .method true go!"decode" go!"buf" tbuf (.obj2 go!"buf" tbuf go!"value" (.name (camel full))) b := ⟨_, rfl⟩
    obtain ⟨b, hm⟩ := hm
    rw [hm] at hbody hdm
    simp only [List.flatMap_cons, List.flatMap_nil, Member.body, and_self, if_pos, List.append_nil] at hbody
    rw [Member.scoped, scopedBody, hbody] at hdm
    simp only [Bool.and_eq_true, decide_eq_true_eq] at hdm
    exact hdm.2.1
  · intro x hx hk
    have hpm := hall (.prop (go!"_" ++ lower x.name) (fieldTy x)) (List.mem_append_left _ (List.mem_append_right _ (List.mem_flatMap.mpr ⟨x, hx, by simp [property]⟩)))
    rw [Member.scoped] at hpm
    have he : (elemTy x.kind (camel x.type)).scoped (T ++ builtin) = true := by
      rw [fieldTy] at hpm
      split at hpm
      · exact hpm
      · exact hpm
      · rw [Ty.scoped] at hpm
        simp only [Bool.and_eq_true] at hpm
        exact hpm.2
    have hx' : camel x.type ∈ T ++ builtin := by
      rcases hk with hk | hk <;> (rw [hk] at he; exact of_decide_eq_true he)
    rcases List.mem_append.mp hx' with hx' | hx'
    · exact List.mem_append_left _ (ht.mem_iff.mp hx')
    · exact List.mem_append_right _ hx'

end TsText
