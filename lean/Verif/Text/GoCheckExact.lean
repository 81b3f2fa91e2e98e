import Verif.Text.GoCheckHidden

/-!
# Which generated programs compile
-/

namespace GoCheck

open Utils Text GoAst GoText
open Gen (PKind Field)
open Package (EnumD qualify)

variable {lib : Lib}

/-! ## Names -/

theorem lower_flip : ∀ c : Byte, isLower c = true → isDigit (c ^^^ 0x20) = false := by decide +kernel

theorem upper_not_digit : ∀ c : Byte, isUpper c = true → isDigit c = false := by decide +kernel

/-- What `camelLoop` makes digits of. -/
theorem camelLoop_digits {t : Bytes} (h : IsDotted t) : ∀ (q p d : Bytes), t = p ++ d → camelLoop d = q → (∀ x ∈ q, isDigit x = true) → d = q
  | q, p, d, ht, hq, hall => by
    cases d with
    | nil => rw [← hq, camelLoop]
    | cons c r =>
      rw [camelLoop] at hq
      split at hq
      · rename_i hu
        cases r with
        | nil => simp [nextLower] at hu
        | cons x r =>
          have hx : isLower x = true := hu.2
          obtain ⟨h1, h2, h3⟩ := lower_other x hx
          rw [camelLoop, if_neg (fun h => h1 h.1), if_neg h2, h3, hx] at hq
          have := hall (x ^^^ 0x20) (by rw [← hq]; simp)
          rw [lower_flip x hx] at this; cases this
      split at hq
      · rename_i hc
        obtain ⟨y, r', rfl, hy⟩ := (h.after_dot p r (hc ▸ ht)).head
        obtain ⟨out, ho⟩ := Package.camelCase_cons r' hy
        have hcc : camelCase (y :: r') = camelLoop (y :: r') := by
          have : y ≠ underscore := by rintro rfl; revert hy; decide
          simp [camelCase, this]
        rw [← hcc, ho] at hq
        have := hall (toUpper y) (by rw [← hq]; simp)
        rw [upper_not_digit _ (toUpper_upper y hy)] at this; cases this
      split at hq
      · cases q with
        | nil => cases hq
        | cons x q =>
          simp only [List.cons.injEq] at hq
          rw [hq.1, camelLoop_digits h q (p ++ [c]) r (by rw [ht]; simp) hq.2 fun y hy => hall y (List.mem_cons_of_mem _ hy)]
      · rename_i hnd
        have := hall _ (by rw [← hq]; exact List.mem_cons_self ..)
        split at this
        · rename_i hl; rw [lower_flip c hl] at this; cases this
        · exact absurd this hnd

/-- The only name of an enum for which the type of a repeated field is `uint32`. -/
theorem repeatedEnum_uint32 {t : Bytes} (h : IsDotted t) (he : repeatedEnum t = go!"uint32") : t = str!"uint32" := by
  have hs : t.takeWhile isLower ++ t.dropWhile isLower = t := List.takeWhile_append_dropWhile
  rw [repeatedEnum_eq] at he
  have he : elemName t = str!"uint32" := by
    have : ofBytes (elemName t) = ofBytes str!"uint32" := he
    exact List.map_inj_right (fun a b hab => by cases hab; rfl) |>.mp this
  rw [elemName] at he
  have hp : t.takeWhile isLower = str!"uint" := by
    have h1 := congrArg (List.takeWhile isLower) he
    rw [List.takeWhile_append_of_pos fun x hx => List.all_eq_true.mp (List.all_takeWhile (p := isLower) (l := t)) x hx] at h1
    have h2 : (camelLoop (t.dropWhile isLower)).takeWhile isLower = [] := by
      cases hc : camelLoop (t.dropWhile isLower) with
      | nil => rfl
      | cons c cs => rw [List.takeWhile_cons_of_neg (by rw [camelLoop_head _ c cs hc]; decide)]
    rw [h2, List.append_nil] at h1
    rw [h1]; decide
  rw [hp] at he
  have hq : camelLoop (t.dropWhile isLower) = str!"32" := List.append_cancel_left (as := str!"uint") he
  have := camelLoop_digits h _ _ _ hs.symm hq (by decide)
  rw [← hs, hp, this]; rfl

section
variable {f : FileD}

theorem mem_enum {e : Bytes × EnumD} (he : e ∈ f.enumTypes) {d : Decl} (hd : d ∈ enumDecls e.1 e.2) : d ∈ program f := by
  rw [program_units]
  exact List.mem_append_right _ (List.mem_flatMap.mpr ⟨.enum e.1 e.2, mem_units_enum he, hd⟩)

/-- The constants of an enum are `uint32`. -/
theorem enum_size (h : compiles (program f) = true) {e : Bytes × EnumD} (he : e ∈ f.enumTypes) : e.2.values.length ≤ 2 ^ 32 := by
  apply Classical.byContradiction
  intro hlt
  have hlt : 2 ^ 32 < e.2.values.length := by omega
  have hd : Distinct (program f) := distinct_of_compiles h
  have hft : GoRun.findType (program f) (camel (qualify e.1 e.2.name)) = some tuint32 :=
    findType_eq hd (mem_enum he (List.mem_cons_self ..))
  have : decl (program f) (.consts (e.2.values.mapIdx fun i v => (camel (qualify e.1 v), .call1 (.var (camel (qualify e.1 e.2.name))) (.num (ofBytes (decimal i)))))) = true := by
    simp only [compiles, Bool.and_eq_true, List.all_eq_true] at h
    exact h.1.1.1.1.1.2 _ (mem_enum he (by simp [enumDecls]))
  simp only [decl, List.all_eq_true] at this
  have h2 := this _ (List.mem_mapIdx.mpr ⟨2 ^ 32, hlt, rfl⟩)
  simp only [decimalValue_decimal, Bool.and_eq_true] at h2
  have h3 := h2.2
  have hu : underlying (program f) (.name (camel (qualify e.1 e.2.name))) = tuint32 := by
    simp [underlying, hft]
  have hi : integer (program f) (.name (camel (qualify e.1 e.2.name))) = some (2 ^ 32) := by
    unfold integer
    rw [hu]; decide +kernel
  simp only [assignable, hi] at h3
  exact absurd h3 (by decide)

end

/-- The Go name of a type that a field refers to is declared in the program only for that type: a type of another file does not
happen to have the Go name of something in this file. -/
structure _root_.GoText.FileD.OwnNames [Lib] (f : FileD) : Prop where
  message : ∀ t ∈ f.types, ∀ g ∈ t.2, g.kind = .message → camel g.type ∈ (program f).flatMap Decl.declared → g.type ∈ f.types.map (·.1)
  enum : ∀ t ∈ f.types, ∀ g ∈ t.2, g.kind = .enum → camel g.type ∈ (program f).flatMap Decl.declared → g.type ∈ f.enumNames

/-- Files that refer to their own types only. -/
theorem _root_.GoText.FileD.Closed.ownNames {f : FileD} (h : f.Closed) : f.OwnNames :=
  ⟨fun t ht g hg hk _ => (h t ht g hg).1 hk, fun t ht g hg hk _ => (h t ht g hg).2 hk⟩

/-- The printed program compiles exactly if the file has none of the listed defects. -/
theorem compiles_iff {f : FileD} (hw : f.Wf) (ho : f.OwnNames)
    (hn : ∀ t ∈ f.types, ∀ g ∈ t.2, g.shape = .many → g.kind = .enum → g.type ≠ str!"uint32") : compiles (program f) = true ↔ f.Compilable := by
  refine ⟨fun h => ?_, compiles_program⟩
  have hu := unhidden_of_compiles h hw
  have hc : f.Closed := by
    intro t ht g hg
    refine ⟨fun hk => ho.message t ht g hg hk (types_declared h hw ht hg (.inl hk)), fun hk => ?_⟩
    by_cases hs : g.shape = .many
    · exact absurd (repeatedEnum_uint32 (((hw.typeWf ht).fields g hg).type (.inr hk)) (repeated_enum h hw ht hg hs hk)) (hn t ht g hg hs hk)
    · exact ho.enum t ht g hg hk (types_declared h hw ht hg (.inr ⟨hk, hs⟩))
  refine ⟨⟨hw, hc, distinct_of_compiles h, fun t ht => (struct_compiles h ht).1, ?_⟩, hu, has_message h hw, fun t ht g hg => no_method_fields h ht hg, not_main h,
    fun e he => enum_size h he⟩
  intro fs hfs
  obtain ⟨t, ht, rfl⟩ := List.mem_map.mp hfs
  refine ⟨fun x hx => ?_, ?_⟩
  · obtain ⟨g, hg, rfl⟩ := List.mem_map.mp hx
    have hwg := (hw.typeWf ht).fields g hg
    cases hs : g.shape with
    | one r => simp only [FieldD.toField, hs]; exact hwg.kind
    | many =>
      simp only [FieldD.toField, hs]
      refine ⟨hwg.kind, fun hk => ?_, no_repeated_bytes h hw ht hg hs⟩
      exact hn t ht g hg hs hk (repeatedEnum_uint32 (hwg.type (.inr hk)) (repeated_enum h hw ht hg hs hk))
    | map kk =>
      simp only [FieldD.toField, hs]
      have := hwg.key kk hs
      refine ⟨?_, ?_, ?_, hwg.kind, no_bytes_values h ht hg hs⟩ <;> (rintro rfl; revert this; simp [IsKey])
  · by_cases hne : t.2 = []
    · left; simp [hne]
    · right
      obtain ⟨g, hg, hm⟩ := no_maps_only h ht hne
      refine ⟨_, List.mem_map.mpr ⟨g, hg, rfl⟩, ?_⟩
      cases hs : g.shape with
      | map kk => exact absurd hs (hm kk)
      | _ => simp [FieldD.toField, hs, Field.IsMap]

end GoCheck
