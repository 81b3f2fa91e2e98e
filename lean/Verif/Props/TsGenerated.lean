import Verif.Gen.TsGen
import Verif.Gen.LayoutFacts
import Verif.Gen.GoRound

/-! # C43, C44 for generated TypeScript -/

namespace Props

open Gen TsGen

/-- Positions of the fields of a group, in declaration order. -/
def positions (g : Group) (fs : List Field) : List Nat := (List.range fs.length).filter fun i => (fs[i]?).map Field.group = some g

/-- Fields the TypeScript generator does not panic on: no groups. -/
def NoGroups (fs : List Field) : Prop := ∀ f ∈ fs, ∀ r c, f ≠ .one .group r c

/-- The three groups as the generator finds them, from position `i` on. -/
def at_ (g : Group) (i : Nat) : List Field → List Nat
  | [] => []
  | f :: fs => if f.group = g then i :: at_ g (i + 1) fs else at_ g (i + 1) fs

theorem at_positions (g : Group) : ∀ (fs : List Field) (i : Nat), at_ g i fs = (positions g fs).map (· + i) := by
  intro fs
  induction fs with
  | nil => intro i; simp [at_, positions]
  | cons f fs ih =>
    intro i
    simp only [at_, ih (i + 1), positions, List.length_cons, List.range_succ_eq_map, List.filter_cons, List.filter_map]
    by_cases h : f.group = g
    · simp [h, Function.comp_def]; intros; omega
    · simp [h, Function.comp_def]; intros; omega

theorem enc_eq : ∀ (fs : List Field) (i : Nat), NoGroups fs →
    encLoop i fs = some ⟨at_ .nesteds i fs, at_ .repeateds i fs, at_ .scalars i fs⟩ := by
  intro fs
  induction fs with
  | nil => intro i _; rfl
  | cons f fs ih =>
    intro i h
    have hn : NoGroups fs := fun g hg => h g (by simp [hg])
    rw [encLoop, ih (i + 1) hn]
    cases f with
    | one k r c =>
      have := h (.one k r c) (by simp) r c
      cases k <;> cases c <;> simp [at_, Field.group, Field.Cardinality, Field.Kind, Field.IsMap, encodeLUT] at this ⊢
    | many k r => cases k <;> simp [at_, Field.group, Field.Cardinality, Field.IsMap]
    | map kk k r => simp [at_, Field.group, Field.Cardinality, Field.Kind, Field.IsMap, encodeLUT]

theorem dec_eq : ∀ (fs : List Field) (i : Nat), NoGroups fs →
    decLoop i fs = some ⟨at_ .nesteds i fs, at_ .repeateds i fs, at_ .scalars i fs⟩ := by
  intro fs
  induction fs with
  | nil => intro i _; rfl
  | cons f fs ih =>
    intro i h
    have hn : NoGroups fs := fun g hg => h g (by simp [hg])
    rw [decLoop, ih (i + 1) hn]
    cases f with
    | one k r c =>
      have := h (.one k r c) (by simp) r c
      cases k <;> cases c <;> simp [at_, Field.group, Field.Cardinality, Field.Kind, Field.IsMap, decodeLUT] at this ⊢
    | many k r => cases k <;> simp [at_, Field.group, Field.Cardinality, Field.IsMap]
    | map kk k r => simp [at_, Field.group, Field.Cardinality, Field.Kind, Field.IsMap, decodeLUT]

/-- TypeScript `encode` visits the fields in the order of the layout (as Go and Rust do). -/
theorem C43_ts_encode_order (fs : List Field) (h : NoGroups fs) :
    encodeOrder fs = some (positions .scalars fs ++ positions .repeateds fs ++ positions .nesteds fs) := by
  simp [encodeOrder, getEncodingFields, enc_eq fs 0 h, at_positions]

/-- TypeScript `decode` visits the repeated fields first, then messages and maps, and the scalars last. -/
theorem C43_ts_decode_order (fs : List Field) (h : NoGroups fs) :
    decodeOrder fs = some (positions .repeateds fs ++ positions .nesteds fs ++ positions .scalars fs) := by
  simp [decodeOrder, getDecodingFields, dec_eq fs 0 h, at_positions]

theorem mem_positions {g : Group} {fs : List Field} {i : Nat} : i ∈ positions g fs ↔ ∃ f, fs[i]? = some f ∧ f.group = g := by
  simp only [positions, List.mem_filter, List.mem_range, decide_eq_true_eq, Option.map_eq_some_iff]
  constructor
  · rintro ⟨_, f, h1, h2⟩; exact ⟨f, h1, h2⟩
  · rintro ⟨f, h1, h2⟩
    refine ⟨?_, f, h1, h2⟩
    rcases Nat.lt_or_ge i fs.length with h | h
    · exact h
    · rw [List.getElem?_eq_none h] at h1; simp at h1

/-- So in TypeScript `encode` and `decode` disagree for every message type that has a scalar field and another
field. -/
theorem C43_ts_false (fs : List Field) (h : NoGroups fs) (f g : Field) (hf : f ∈ fs) (hs : f.group = .scalars)
    (hg : g ∈ fs) (ho : g.group ≠ .scalars) : encodeOrder fs ≠ decodeOrder fs := by
  rw [C43_ts_encode_order fs h, C43_ts_decode_order fs h]
  intro he
  simp only [Option.some.injEq] at he
  obtain ⟨i, hi⟩ := List.getElem?_of_mem hf
  obtain ⟨j, hj⟩ := List.getElem?_of_mem hg
  have h1 : i ∈ positions .scalars fs := mem_positions.mpr ⟨f, hi, hs⟩
  cases hp : positions .scalars fs with
  | nil => rw [hp] at h1; simp at h1
  | cons a as =>
    cases hq : positions .repeateds fs ++ positions .nesteds fs with
    | nil =>
      simp at hq
      cases hgg : g.group with
      | scalars => exact ho hgg
      | repeateds =>
        have := mem_positions.mpr ⟨g, hj, hgg⟩
        rw [hq.1] at this; simp at this
      | nesteds =>
        have := mem_positions.mpr ⟨g, hj, hgg⟩
        rw [hq.2] at this; simp at this
    | cons b bs =>
      have ha : a ∈ positions .scalars fs := by rw [hp]; simp
      have hb : b ∈ positions .repeateds fs ++ positions .nesteds fs := by rw [hq]; simp
      rw [hq, hp] at he
      simp at he
      obtain ⟨rfl, _⟩ := he
      obtain ⟨x, x1, x2⟩ := mem_positions.mp ha
      rcases List.mem_append.mp hb with hb | hb <;> obtain ⟨y, y1, y2⟩ := mem_positions.mp hb <;>
        (rw [x1] at y1; simp at y1; subst y1; rw [x2] at y2; simp at y2)

/-- `message { bool a; repeated bool b; }` -/
example : let fs : List Field := [.one .bool 0 false, .many .bool 0]
    NoGroups fs ∧ encodeOrder fs = some [0, 1] ∧ decodeOrder fs = some [1, 0] := by
  refine ⟨?_, rfl, rfl⟩
  intro f hf r c
  simp at hf
  rcases hf with rfl | rfl <;> simp

/-- `decode` passes the field values to the constructor in the order of `encode`, but the constructor takes them in
declaration order: right only if scalars are declared before repeated fields and these before messages and maps. -/
theorem C43_ts_constructor_false (fs : List Field) (h : NoGroups fs) (i j : Nat) (f g : Field) (hij : i < j)
    (hi : fs[i]? = some f) (hj : fs[j]? = some g)
    (ho : f.group ≠ .scalars ∧ g.group = .scalars ∨ f.group = .nesteds ∧ g.group = .repeateds) :
    arguments fs ≠ some (parameters fs) := by
  intro he
  simp only [arguments, getDecodingFields, dec_eq fs 0 h, at_positions, Option.map_some, Option.some.injEq, Nat.add_zero,
    List.map_id', parameters] at he
  have sorted : (positions .scalars fs ++ positions .repeateds fs ++ positions .nesteds fs).Pairwise (· < ·) := by
    rw [he]; exact List.pairwise_lt_range
  rw [List.pairwise_append, List.pairwise_append] at sorted
  obtain ⟨⟨_, _, s1⟩, _, s2⟩ := sorted
  rcases ho with ⟨h1, h2⟩ | ⟨h1, h2⟩
  · have hg := mem_positions.mpr ⟨g, hj, h2⟩
    cases hf : f.group with
    | scalars => exact h1 hf
    | repeateds => have := s1 j hg i (mem_positions.mpr ⟨f, hi, hf⟩); omega
    | nesteds => have := s2 j (by simp [hg]) i (mem_positions.mpr ⟨f, hi, hf⟩); omega
  · have := s2 j (by simp [mem_positions.mpr ⟨g, hj, h2⟩]) i (mem_positions.mpr ⟨f, hi, h1⟩); omega

/-- `message { repeated bool a; bool b; }` -/
example : let fs : List Field := [.many .bool 0, .one .bool 0 false]
    arguments fs = some [1, 0] ∧ parameters fs = [0, 1] := ⟨rfl, rfl⟩

/-! ## C44 -/

/-- Generated TypeScript imports functions that the package does not export, as soon as any message type has a
field that is not a singular message: the module cannot be linked. -/
theorem C44_ts_imports_false (S : Schema) (names : List String) (hn : imports S = some names) (fs : List Field) (hfs : fs ∈ S.messages)
    (f : Field) (hf : f ∈ fs) (hs : ∀ r c, f ≠ .one .message r c) : ∃ name ∈ names, name ∉ exported := by
  have hmem : f ∈ S.messages.flatten := List.mem_flatten.mpr ⟨fs, hfs, hf⟩
  simp only [imports, Option.map_eq_some_iff] at hn
  obtain ⟨ds, hd, rfl⟩ := hn
  have key : ∀ (l : List Field) (ds : List (List String)), l.mapM depsField = some ds → f ∈ l → ∃ d, depsField f = some d ∧ d ∈ ds := by
    intro l
    induction l with
    | nil => intro _ _ h; simp at h
    | cons g l ih =>
      intro ds hd h
      rw [List.mapM_cons] at hd
      cases hg : depsField g with
      | none => rw [hg] at hd; simp at hd
      | some a =>
        cases hl : l.mapM depsField with
        | none => rw [hg, hl] at hd; simp at hd
        | some as =>
          rw [hg, hl] at hd; simp at hd; subst hd
          rcases List.mem_cons.mp h with rfl | h
          · exact ⟨a, hg, by simp⟩
          · obtain ⟨d, h1, h2⟩ := ih as hl h
            exact ⟨d, h1, by simp [h2]⟩
  obtain ⟨d, hd1, hd2⟩ := key _ _ hd hmem
  have : ∃ name ∈ d, name ∉ exported := by
    cases f with
    | one k r c =>
      cases k <;> simp [depsField, lut, encodeLUT, decodeLUT] at hd1 hs <;> subst hd1 <;> simp [exported]
    | many k r =>
      cases k <;> simp [depsField, depsDecodeSlice, depsEncodeSlice, getKind, kindLUT, lut, encodeLUT, decodeLUT] at hd1 <;>
        subst hd1 <;> simp [exported]
    | map kk k r =>
      cases hk : depsEncodeMap kk k with
      | none => simp [depsField, hk] at hd1
      | some e =>
        simp [depsField, hk] at hd1
        subst hd1
        refine ⟨"decodeMap", by simp [depsDecodeMap], by decide⟩
  obtain ⟨name, h1, h2⟩ := this
  exact ⟨name, List.mem_flatten.mpr ⟨d, hd2, h1⟩, h2⟩

/-- The kinds for which the name the generator uses for the element kind is a member of `Kind` in kind.ts with the
right number: five of seventeen. -/
theorem C44_ts_kind_names_false (k : PKind) (name : String) (h : getKind k = some name) :
    kindMember name = some k.announced.toNat ↔ k = .int32 ∨ k = .sint32 ∨ k = .sfixed32 ∨ k = .string ∨ k = .message := by
  cases k <;> simp [getKind, kindLUT] at h <;> subst h <;> decide

/-- The other names are not members at all. -/
theorem C44_ts_kind_names_undefined (k : PKind) (name : String) (h : getKind k = some name)
    (hk : ¬ (k = .int32 ∨ k = .sint32 ∨ k = .sfixed32 ∨ k = .string ∨ k = .message)) : kindMember name = none := by
  cases k <;> simp [getKind, kindLUT] at h hk <;> subst h <;> decide

/-- The encoder and decoder functions of a kind belong together, and exist for the same kinds. -/
theorem C44_ts_functions_match (k : PKind) :
    (∃ t, encodeLUT k = some ("encode" ++ t) ∧ decodeLUT k = some ("decode" ++ t)) ∨ encodeLUT k = none ∧ decodeLUT k = none := by
  cases k
  case bool => exact .inl ⟨"Boolean", by decide, by decide⟩
  case int32 => exact .inl ⟨"Int32", by decide, by decide⟩
  case sint32 => exact .inl ⟨"Int32", by decide, by decide⟩
  case sfixed32 => exact .inl ⟨"Int32", by decide, by decide⟩
  case uint32 => exact .inl ⟨"Uint32", by decide, by decide⟩
  case fixed32 => exact .inl ⟨"Uint32", by decide, by decide⟩
  case enum => exact .inl ⟨"Uint32", by decide, by decide⟩
  case int64 => exact .inl ⟨"Int64", by decide, by decide⟩
  case sint64 => exact .inl ⟨"Int64", by decide, by decide⟩
  case sfixed64 => exact .inl ⟨"Int64", by decide, by decide⟩
  case uint64 => exact .inl ⟨"Uint64", by decide, by decide⟩
  case fixed64 => exact .inl ⟨"Uint64", by decide, by decide⟩
  case float => exact .inl ⟨"Float32", by decide, by decide⟩
  case double => exact .inl ⟨"Float64", by decide, by decide⟩
  case string => exact .inl ⟨"String", by decide, by decide⟩
  case bytes => exact .inl ⟨"Bytes", by decide, by decide⟩
  case message => exact .inr ⟨rfl, rfl⟩
  case group => exact .inr ⟨rfl, rfl⟩

end Props
