import Verif.Gen.Typing
import Verif.Gen.GoRound
import Verif.Gen.RustRound

/-! # C77, C78: for which schemas the generated Go and Rust code compiles -/

namespace Props
open Gen

/-! ## C77: the code generated for Go is well typed -/

theorem goFieldOk_iff (f : Field) :
    ((GoGen.FindValue f).isSome && GoGen.encFieldOk f && GoGen.decFieldOk f) = true ↔ f.GoSupported := by
  cases f with
  | one k r c => cases k <;> simp (decide := true) [Field.GoSupported, GoGen.FindValue, GoGen.encFieldOk, GoGen.decFieldOk, GoGen.FindElem,
      GoGen.typeLUT, GoGen.encodeLUT, GoGen.decodeLUT, GoGen.callOk, GoGen.argOk, GoGen.convertible, GoGen.readOk, GoGen.encodable]
  | many k r => cases k <;> simp (decide := true) [Field.GoSupported, GoGen.FindValue, GoGen.encFieldOk, GoGen.decFieldOk, GoGen.FindElem,
      GoGen.typeLUT, GoGen.encodeLUT, GoGen.decodeLUT, GoGen.callOk, GoGen.argOk, GoGen.readOk, GoGen.encodable,
      GoGen.Method.type, GoGen.encSliceOk, GoGen.GetKind, GoGen.kindLUT]
  | map kk k r => cases kk <;> cases k <;> simp (decide := true) [Field.GoSupported, GoGen.FindValue, GoGen.encFieldOk, GoGen.decFieldOk,
      GoGen.FindElem, GoGen.typeLUT, GoGen.encodeLUT, GoGen.decodeLUT, GoGen.callOk, GoGen.argOk, GoGen.convertible, GoGen.readOk,
      GoGen.encodable, GoGen.GetKind, GoGen.kindLUT, GoGen.encEntryOk, GoGen.decEntryOk]

theorem go_errUsed_iff (fs : List Field) (h : ∀ f ∈ fs, f.GoSupported) :
    GoGen.errUsed fs ⟨GoGen.idx GoGen.isMsg 0 fs, GoGen.idx GoGen.isSlice 0 fs, GoGen.idx GoGen.isValue 0 fs⟩ = true ↔
      (fs = [] ∨ ∃ f ∈ fs, f.IsMap = false) := by
  constructor
  · intro hu
    refine Classical.byContradiction fun hn => ?_
    rw [not_or] at hn
    obtain ⟨hne, hall⟩ := hn
    have hmap : ∀ f ∈ fs, f.IsMap = true := by
      intro f hf
      cases hm : f.IsMap with
      | true => rfl
      | false => exact absurd ⟨f, hf, hm⟩ hall
    have hnone : ∀ p : Field → Bool, (∀ f, f.IsMap = true → p f = false) → GoGen.idx p 0 fs = [] := by
      intro p hp
      cases hl : GoGen.idx p 0 fs with
      | nil => rfl
      | cons j l =>
        obtain ⟨_, g, hg, hpg⟩ := (GoGen.mem_idx p fs 0 j).mp (by rw [hl]; simp)
        have := hp g (hmap g (List.mem_of_getElem? hg))
        rw [hpg] at this; simp at this
    have h1 := hnone GoGen.isSlice (by intro f hf; cases f <;> simp [Field.IsMap, GoGen.isSlice] at *)
    have h2 := hnone GoGen.isValue (by intro f hf; cases f <;> simp [Field.IsMap, GoGen.isValue] at *)
    rw [h1, h2] at hu
    have h3 : GoGen.idx GoGen.isMsg 0 fs ≠ [] := by
      cases fs with
      | nil => exact absurd rfl hne
      | cons f fs =>
        have := hmap f (by simp)
        cases f with
        | map kk k r => simp [GoGen.idx, GoGen.isMsg]
        | one => simp [Field.IsMap] at this
        | many => simp [Field.IsMap] at this
    simp only [GoGen.errUsed, List.isEmpty_nil, Bool.not_true, Bool.or_false, Bool.or_eq_true, List.isEmpty_iff, List.any_eq_true] at hu
    rcases hu with hu | ⟨i, hi, hu⟩
    · exact h3 hu
    · obtain ⟨_, g, hg, _⟩ := (GoGen.mem_idx _ fs 0 i).mp hi
      rw [Nat.sub_zero] at hg
      rw [hg] at hu
      have := hmap g (List.mem_of_getElem? hg)
      simp [this] at hu
  · intro hs
    have := GoGen.errUsed_ok (S := ⟨[fs], []⟩) (by
      intro gs hgs
      rw [List.mem_singleton] at hgs
      subst hgs
      exact ⟨h, hs⟩) 0
    simpa [Schema.fields] using this

/-- The code generated for a schema compiles exactly if no field is a group, no repeated field is of enums or bytes, no map has
bytes as values (or keys proto does not allow), and no message type has map fields only. -/
theorem C77_go_compiles_iff_partial (S : Schema) : (∀ fs ∈ S.messages, GoGen.messageOk fs = true) ↔ S.GoSupported := by
  have key : ∀ fs : List Field, GoGen.messageOk fs = true ↔
      (∀ f ∈ fs, f.GoSupported) ∧ (fs = [] ∨ ∃ f ∈ fs, f.IsMap = false) := by
    intro fs
    have hall : (fs.all fun f => (GoGen.FindValue f).isSome && GoGen.encFieldOk f && GoGen.decFieldOk f) = true ↔
        ∀ f ∈ fs, f.GoSupported := by
      rw [List.all_eq_true]
      exact ⟨fun h f hf => (goFieldOk_iff f).mp (h f hf), fun h f hf => (goFieldOk_iff f).mpr (h f hf)⟩
    simp only [GoGen.messageOk, Bool.and_eq_true, hall]
    constructor
    · rintro ⟨⟨h1, h2⟩, h3⟩
      refine ⟨h1, ?_⟩
      rw [GoGen.GetDecodingFields, GoGen.decLoop_eq fs 0 h1] at h3
      exact (go_errUsed_iff fs h1).mp h3
    · rintro ⟨h1, h2⟩
      refine ⟨⟨h1, ?_⟩, ?_⟩
      · rw [GoGen.GetEncodingFields, GoGen.encLoop_eq fs 0 h1]; rfl
      · rw [GoGen.GetDecodingFields, GoGen.decLoop_eq fs 0 h1]
        exact (go_errUsed_iff fs h1).mpr h2
  exact forall_congr' fun fs => forall_congr' fun _ => key fs

/-- Legal proto message types for which it does not: a repeated enum, repeated bytes, a map to bytes, a single map. -/
theorem C77_go_false :
    GoGen.messageOk [.many .enum 0] = false ∧ GoGen.messageOk [.many .bytes 0] = false ∧
    GoGen.messageOk [.one .bool 0 false, .map .string .bytes 0] = false ∧ GoGen.messageOk [.map .string .int32 0] = false := by
  decide

/-- The lines printed for `Encode` and for `decode` separately: repeated enums are the only field that does not encode (apart from
groups); repeated bytes and maps with bytes as values encode but do not decode. -/
theorem C77_go_lines (f : Field) :
    (GoGen.encFieldOk f = true ↔ match f with
      | .one k _ _ => k ≠ .group
      | .many k _ => k ≠ .group ∧ k ≠ .enum
      | .map kk k _ => kk ≠ .group ∧ k ≠ .group) ∧
    (GoGen.decFieldOk f = true ↔ match f with
      | .one k _ _ => k ≠ .group
      | .many k _ => k ≠ .group ∧ k ≠ .enum ∧ k ≠ .bytes
      | .map kk k _ => kk ≠ .group ∧ kk ≠ .bytes ∧ kk ≠ .message ∧ k ≠ .group ∧ k ≠ .bytes) := by
  cases f with
  | one k r c => cases k <;> simp (decide := true) [GoGen.encFieldOk, GoGen.decFieldOk, GoGen.FindElem,
      GoGen.typeLUT, GoGen.encodeLUT, GoGen.decodeLUT, GoGen.callOk, GoGen.argOk, GoGen.convertible, GoGen.readOk, GoGen.encodable]
  | many k r => cases k <;> simp (decide := true) [GoGen.encFieldOk, GoGen.decFieldOk, GoGen.FindElem,
      GoGen.typeLUT, GoGen.encodeLUT, GoGen.decodeLUT, GoGen.callOk, GoGen.argOk, GoGen.readOk, GoGen.encodable,
      GoGen.Method.type, GoGen.encSliceOk, GoGen.GetKind, GoGen.kindLUT]
  | map kk k r => cases kk <;> cases k <;> simp (decide := true) [GoGen.encFieldOk, GoGen.decFieldOk,
      GoGen.FindElem, GoGen.typeLUT, GoGen.encodeLUT, GoGen.decodeLUT, GoGen.callOk, GoGen.argOk, GoGen.convertible, GoGen.readOk,
      GoGen.encodable, GoGen.GetKind, GoGen.kindLUT, GoGen.encEntryOk, GoGen.decEntryOk]

/-- All kinds that compile, in one message type. -/
example : GoGen.messageOk [.one .bytes 0 false, .one .enum 0 true, .many .string 0, .many .message 0, .map .int32 .enum 0,
    .map .string .message 0, .one .message 0 false] = true := by decide

/-! ## C78: the code generated for Rust is well typed and its structs have finite size -/

theorem rustFieldOk_iff (f : Field) :
    ((RustGen.findValue f).isSome && RustGen.encFieldOk f && RustGen.decFieldOk f) = true ↔ f.RustSupported := by
  cases f with
  | one k r c => cases k <;> simp (decide := true) [Field.RustSupported, RustGen.findValue, RustGen.encFieldOk, RustGen.decFieldOk,
      RustGen.findElem, RustGen.typeLUT, RustGen.encodeLUT, RustGen.decodeLUT, RustGen.valueForm, RustGen.accepts, RustGen.decEntryOk]
  | many k r => cases k <;> simp (decide := true) [Field.RustSupported, RustGen.findValue, RustGen.encFieldOk, RustGen.decFieldOk,
      RustGen.findElem, RustGen.typeLUT, RustGen.encodeLUT, RustGen.decodeLUT, RustGen.accepts, RustGen.getKind, RustGen.kindLUT]
  | map kk k r => cases kk <;> cases k <;> simp (decide := true) [Field.RustSupported, RustGen.findValue, RustGen.encFieldOk,
      RustGen.decFieldOk, RustGen.findElem, RustGen.typeLUT, RustGen.encodeLUT, RustGen.decodeLUT, RustGen.accepts, RustGen.getKind,
      RustGen.kindLUT, RustGen.mapBodyOk, RustGen.decEntryOk, RustGen.hashable]

theorem le_sum_of_mem {a : Nat} {l : List Nat} (h : a ∈ l) : a ≤ l.sum := by
  induction l with
  | nil => simp at h
  | cons b l ih =>
    rw [List.sum_cons]
    rcases List.mem_cons.mp h with rfl | h
    · omega
    · have := ih h; omega

theorem layout_mono (S : Schema) (k m : Nat) (h : RustGen.Layout S k m = true) : RustGen.Layout S (k + 1) m = true := by
  induction k generalizing m with
  | zero => simp [RustGen.Layout] at h
  | succ k ih =>
    rw [RustGen.Layout, List.all_eq_true] at h ⊢
    intro f hf
    have := h f hf
    revert this
    split
    · exact ih _
    · intro h; exact h
    · intro h; exact h

theorem layout_mono' (S : Schema) {k j : Nat} (m : Nat) (hk : k ≤ j) (h : RustGen.Layout S k m = true) :
    RustGen.Layout S j m = true := by
  induction hk with
  | refl => exact h
  | step _ ih => exact layout_mono S _ m ih

/-- rustc lays out all structs exactly if no message type contains itself through singular message fields. -/
theorem layout_iff (S : Schema) (hS : S.RustSupported) : (∃ depth, ∀ m, RustGen.Layout S depth m = true) ↔ S.FiniteSize := by
  have hfield : ∀ m, ∀ f ∈ S.fields m, ∀ r, RustGen.findValue f = some (.struct r) ↔ ∃ c, f = .one .message r c := by
    intro m f hf r
    cases f with
    | one k r' c => cases k <;> simp [RustGen.findValue, RustGen.findElem, RustGen.typeLUT]
    | many k r' => cases k <;> simp [RustGen.findValue, RustGen.findElem, RustGen.typeLUT]
    | map kk k r' =>
      simp only [RustGen.findValue, reduceCtorEq, exists_const, iff_false]
      cases RustGen.findElem kk 0 false <;> cases RustGen.findElem k r' false <;> simp
  have hsome : ∀ m, ∀ f ∈ S.fields m, (RustGen.findValue f).isSome = true := by
    intro m f hf
    unfold Schema.fields at hf
    cases hm : S.messages[m]? with
    | none => rw [hm] at hf; simp at hf
    | some fs =>
      rw [hm] at hf
      have := (rustFieldOk_iff f).mpr (hS fs (List.mem_of_getElem? hm) f (by simpa using hf))
      simp only [Bool.and_eq_true] at this
      exact this.1.1
  constructor
  · rintro ⟨depth, h⟩
    have hleast : ∀ m, ∃ k, RustGen.Layout S k m = true ∧ ∀ j, RustGen.Layout S j m = true → k ≤ j := by
      intro m
      have hm := h m
      induction depth using Nat.strongRecOn with
      | _ k ih =>
        by_cases hx : ∃ j, j < k ∧ RustGen.Layout S j m = true
        · obtain ⟨j, hj, hl⟩ := hx
          obtain ⟨k', h1, h2⟩ : ∃ k, RustGen.Layout S k m = true ∧ ∀ j, RustGen.Layout S j m = true → k ≤ j := by
            clear ih h
            induction j using Nat.strongRecOn with
            | _ j ih =>
              by_cases hx : ∃ i, i < j ∧ RustGen.Layout S i m = true
              · obtain ⟨i, hi, hl'⟩ := hx
                exact ih i hi (by omega) hl'
              · exact ⟨j, hl, fun i hi => Nat.le_of_not_lt fun hlt => hx ⟨i, hlt, hi⟩⟩
          exact ⟨k', h1, h2⟩
        · exact ⟨k, hm, fun j hj => Nat.le_of_not_lt fun hlt => hx ⟨j, hlt, hj⟩⟩
    refine ⟨fun m => Classical.choose (hleast m), ?_⟩
    rintro m f hf r c rfl
    obtain ⟨h1, h2⟩ := Classical.choose_spec (hleast m)
    obtain ⟨h3, h4⟩ := Classical.choose_spec (hleast r)
    show Classical.choose (hleast r) < Classical.choose (hleast m)
    revert h1
    generalize Classical.choose (hleast m) = k
    intro h1
    cases k with
    | zero => simp [RustGen.Layout] at h1
    | succ k =>
      rw [RustGen.Layout, List.all_eq_true] at h1
      have := h1 _ hf
      rw [(hfield m _ hf r).mpr ⟨c, rfl⟩] at this
      have := h4 k this
      omega
  · rintro ⟨rank, hr⟩
    have hm : ∀ m k, rank m < k → RustGen.Layout S k m = true := by
      intro m k
      induction k generalizing m with
      | zero => intro h; omega
      | succ k ih =>
        intro h
        rw [RustGen.Layout, List.all_eq_true]
        intro f hf
        cases hv : RustGen.findValue f with
        | none => have := hsome m f hf; rw [hv] at this; simp at this
        | some t =>
          cases t with
          | struct r =>
            obtain ⟨c, rfl⟩ := (hfield m f hf r).mp hv
            exact ih r (by have := hr m _ hf r c rfl; omega)
          | _ => rfl
    -- message types beyond the schema have no fields
    refine ⟨((List.range S.messages.length).map rank).sum + 1, fun m => ?_⟩
    by_cases hlt : m < S.messages.length
    · apply hm
      have : rank m ≤ ((List.range S.messages.length).map rank).sum :=
        le_sum_of_mem (List.mem_map.mpr ⟨m, List.mem_range.mpr hlt, rfl⟩)
      omega
    · rw [RustGen.Layout]
      have : S.fields m = [] := by simp [Schema.fields, List.getElem?_eq_none (Nat.le_of_not_lt hlt)]
      simp [this]

/-- The code generated for a schema compiles exactly if there are no groups, repeated fields are of strings, bytes or messages, maps
have string keys and values that are neither strings nor bytes, and no message type contains itself through singular
fields. -/
theorem C78_rust_compiles_iff_partial (S : Schema) : RustGen.Compiles S ↔ S.RustSupported ∧ S.FiniteSize := by
  have key : (∀ fs ∈ S.messages, RustGen.messageOk fs = true) ↔ S.RustSupported := by
    refine forall_congr' fun fs => forall_congr' fun _ => ?_
    have hall : (fs.all fun f => (RustGen.findValue f).isSome && RustGen.encFieldOk f && RustGen.decFieldOk f) = true ↔
        ∀ f ∈ fs, f.RustSupported := by
      rw [List.all_eq_true]
      exact ⟨fun h f hf => (rustFieldOk_iff f).mp (h f hf), fun h f hf => (rustFieldOk_iff f).mpr (h f hf)⟩
    simp only [RustGen.messageOk, Bool.and_eq_true, hall]
    constructor
    · exact fun h => h.1.1
    · intro h
      refine ⟨⟨h, ?_⟩, ?_⟩
      · rw [RustGen.getEncodingFields, RustGen.encLoop_eq fs 0 h]; rfl
      · rw [RustGen.getDecodingFields, RustGen.decLoop_eq fs 0 h]; rfl
  rw [RustGen.Compiles, key]
  constructor
  · rintro ⟨h1, h2⟩; exact ⟨h1, (layout_iff S h1).mp h2⟩
  · rintro ⟨h1, h2⟩; exact ⟨h1, (layout_iff S h1).mpr h2⟩

/-- Legal proto message types for which it does not: repeated numbers, repeated enums, a map from numbers, a map to strings; and a
message type with an optional field of its own type. -/
theorem C78_rust_false :
    RustGen.messageOk [.many .uint32 0] = false ∧ RustGen.messageOk [.many .enum 0] = false ∧
    RustGen.messageOk [.map .int32 .bool 0] = false ∧ RustGen.messageOk [.map .string .string 0] = false ∧
    ¬ RustGen.Compiles ⟨[[.one .message 0 false]], []⟩ := by
  refine ⟨by decide, by decide, by decide, by decide, ?_⟩
  rw [C78_rust_compiles_iff_partial]
  rintro ⟨_, rank, h⟩
  have := h 0 (.one .message 0 false) (by simp [Schema.fields]) 0 false rfl
  omega

/-- The lines printed for `encode` and for `decode` separately: only strings, bytes and messages can be repeated or be keys and
values of a map in `encode`; `decode` accepts nearly everything. -/
theorem C78_rust_lines (f : Field) :
    (RustGen.encFieldOk f = true ↔ match f with
      | .one k _ _ => k ≠ .group
      | .many k _ => k = .string ∨ k = .bytes ∨ k = .message
      | .map kk k _ => (kk = .string ∨ kk = .bytes) ∧ k ≠ .string ∧ k ≠ .bytes ∧ k ≠ .group) ∧
    (RustGen.decFieldOk f = true ↔ match f with
      | .one k _ _ => k ≠ .group
      | .many k _ => k ≠ .group ∧ k ≠ .enum
      | .map kk k _ => kk ≠ .group ∧ kk ≠ .bytes ∧ kk ≠ .message ∧ kk ≠ .enum ∧ kk ≠ .float ∧ kk ≠ .double ∧ k ≠ .group) := by
  cases f with
  | one k r c => cases k <;> simp (decide := true) [RustGen.encFieldOk, RustGen.decFieldOk,
      RustGen.findElem, RustGen.typeLUT, RustGen.encodeLUT, RustGen.decodeLUT, RustGen.valueForm, RustGen.accepts, RustGen.decEntryOk]
  | many k r => cases k <;> simp (decide := true) [RustGen.encFieldOk, RustGen.decFieldOk,
      RustGen.findElem, RustGen.typeLUT, RustGen.encodeLUT, RustGen.decodeLUT, RustGen.accepts, RustGen.getKind, RustGen.kindLUT, RustGen.Method.type]
  | map kk k r => cases kk <;> cases k <;> simp (decide := true) [RustGen.encFieldOk,
      RustGen.decFieldOk, RustGen.findElem, RustGen.typeLUT, RustGen.encodeLUT, RustGen.decodeLUT, RustGen.accepts, RustGen.getKind,
      RustGen.kindLUT, RustGen.mapBodyOk, RustGen.decEntryOk, RustGen.hashable]

example : RustGen.Compiles ⟨[[.one .enum 0 false, .many .message 0, .map .string .message 0, .one .message 1 false],
    [.one .bytes 0 false, .many .string 0]], [3]⟩ := by
  rw [C78_rust_compiles_iff_partial]
  refine ⟨?_, fun m => if m = 0 then 1 else 0, ?_⟩
  · intro fs hfs f hf
    simp only [List.mem_cons, List.not_mem_nil, or_false] at hfs
    rcases hfs with rfl | rfl <;> simp only [List.mem_cons, List.not_mem_nil, or_false] at hf <;>
      rcases hf with rfl | rfl | rfl | rfl <;> simp [Field.RustSupported]
  · rintro m f hf r c rfl
    match m with
    | 0 => simp [Schema.fields] at hf; simp [hf]
    | 1 => simp [Schema.fields] at hf
    | m + 2 => simp [Schema.fields] at hf

end Props
