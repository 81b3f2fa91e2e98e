import Verif.Text.GoCheckProgram

/-!
# What a generated program that compiles must satisfy
-/

namespace GoCheck

open Utils Text GoAst GoText
open Gen (PKind Field)
open Package (EnumD qualify)
open GoRun (findStruct findType findFunc findMethod findErr base Func structOf fieldIndex kinds tBool tUint32 tInt tError tBytes tBuffer tEncoder tDecoder tKind
  lookup_cons_ne lookup_cons_self)

variable {lib : Lib}

/-! ## Statements -/

theorem declare_lookup {Γ Γ' : Env} {m n : Ident} {t : Ty} (h : Γ.declare m t = some Γ') (hn : n ≠ m) : Γ'.vars.lookup n = Γ.vars.lookup n := by
  unfold Env.declare at h
  split at h
  · cases h; rfl
  · split at h
    · cases h
    · cases h
      exact lookup_cons_ne hn ..

theorem stmt_lookup {P : List Decl} {ret : Option Ty} {s : Stmt} {Γ Γ' : Env} {n : Ident} (hs : simple s = true) (h : stmt P ret s Γ = some Γ') (hn : n ∉ newNames s) :
    Γ'.vars.lookup n = Γ.vars.lookup n := by
  cases s with
  | skip => cases hs
  | seq a b => cases hs
  | define2 l m e =>
    simp only [newNames, List.mem_cons, List.not_mem_nil, or_false, not_or] at hn
    simp only [stmt] at h
    split at h
    · split at h
      · cases h
      · rename_i t u _ _
        cases hd : Γ.declare l t with
        | none => rw [hd] at h; cases h
        | some Γ1 =>
          rw [hd] at h
          rw [declare_lookup h hn.2, declare_lookup hd hn.1]
    · cases h
  | var m t =>
    simp only [newNames, List.mem_singleton] at hn
    simp only [stmt] at h
    split at h
    · exact declare_lookup h hn
    · cases h
  | define m e =>
    simp only [newNames, List.mem_singleton] at hn
    simp only [stmt] at h
    split at h
    · split at h
      · cases h
      · exact declare_lookup h hn
    · cases h
  | _ =>
    simp only [stmt] at h
    repeat' split at h
    all_goals first | (cases h; rfl) | cases h

/-- A statement inside of a list that compiles. -/
theorem block_split {P : List Decl} {ret : Option Ty} {s : Stmt} {rest : List Stmt} : ∀ (pre : List Stmt) {Γ Γ' : Env}, stmt P ret (block (pre ++ s :: rest)) Γ = some Γ' →
    ∃ Γ1 Γ2, stmt P ret s Γ1 = some Γ2 ∧ ((newNames s).all fun n => usedIn n (block rest)) = true ∧ ∀ n, (∀ q ∈ pre, n ∉ newNames q) → Γ1.vars.lookup n = Γ.vars.lookup n
  | [], Γ, Γ', h => by
    rw [List.nil_append, stmt_block_cons] at h
    split at h
    · rename_i Γ1 h1
      split at h
      · rename_i h2
        rw [Bool.and_eq_true] at h2
        exact ⟨Γ, Γ1, h1, h2.2, fun _ _ => rfl⟩
      · cases h
    · cases h
  | q :: pre, Γ, Γ', h => by
    rw [List.cons_append, stmt_block_cons] at h
    split at h
    · rename_i Γ1 h1
      split at h
      · rename_i h2
        rw [Bool.and_eq_true] at h2
        obtain ⟨Γ2, Γ3, h3, h4, h5⟩ := block_split pre h
        refine ⟨Γ2, Γ3, h3, h4, fun n hn => ?_⟩
        rw [h5 n fun q' hq' => hn q' (List.mem_cons_of_mem _ hq'), stmt_lookup h2.1 h1 (hn q (List.mem_cons_self ..))]
      · cases h
    · cases h

theorem block_mem {P : List Decl} {ret : Option Ty} {s : Stmt} {ss : List Stmt} {Γ Γ' : Env} (h : stmt P ret (block ss) Γ = some Γ') (hs : s ∈ ss) :
    ∃ Γ1 Γ2, stmt P ret s Γ1 = some Γ2 ∧ ∀ n, (∀ q ∈ ss, n ∉ newNames q) → Γ1.vars.lookup n = Γ.vars.lookup n := by
  obtain ⟨pre, rest, rfl⟩ := List.append_of_mem hs
  obtain ⟨Γ1, Γ2, h1, _, h3⟩ := block_split pre h
  exact ⟨Γ1, Γ2, h1, fun n hn => h3 n fun q hq => hn q (List.mem_append_left _ hq)⟩

theorem for3_body {P : List Decl} {ret : Option Ty} {i : Ident} {e c : Expr} {b : Stmt} {Γ Γ' : Env} (h : stmt P ret (.for3 i e c b) Γ = some Γ') :
    ∃ Γ1 Γ2, stmt P ret b Γ1 = some Γ2 ∧ ∀ n, n ≠ i → Γ1.vars.lookup n = Γ.vars.lookup n := by
  simp only [stmt] at h
  split at h
  · split at h
    · rename_i t _ Γ1 h1
      split at h
      · rename_i h2
        simp only [Bool.and_eq_true] at h2
        obtain ⟨Γ2, h3⟩ := Option.isSome_iff_exists.mp h2.2
        refine ⟨_, _, h3, fun n hn => ?_⟩
        have h4 := declare_lookup (Γ := Γ.inner) h1 hn
        exact h4
      · cases h
    · cases h
  · cases h

theorem func_body {P : List Decl} {r : Option (Ident × Ty)} {n : Ident} {ps : List (Ident × Ty)} {t : Option Ty} {b : Stmt} (h : decl P (.func r n ps t b) = true) :
    ∃ Γ', stmt P t b ⟨r.toList ++ ps, (r.toList ++ ps).map (·.1)⟩ = some Γ' := by
  simp only [decl, Bool.and_eq_true] at h
  exact Option.isSome_iff_exists.mp h.1.2

/-- `d.Bytes()` lacks an argument. -/
theorem no_bytes {P : List Decl} {ret : Option Ty} {l : Expr} {Γ Γ' : Env} (hd : Γ.vars.lookup go!"d" = some tDecoder) :
    stmt P ret (.assign2 l verr (.call0 (.sel vd (method .bytes)))) Γ ≠ some Γ' := by
  have hc := callee_decoder (P := P) hd (m := method .bytes) (s := ⟨[tBytes], [tBytes, tError]⟩) (by cases lib <;> decide +kernel)
  have : expr P Γ.vars (.call0 (.sel vd (method .bytes))) = none := by
    have h3 : expr P Γ.vars (.call0 (.sel vd (method .bytes))) = result P (callee P Γ.vars (.sel vd (method .bytes))) [] := by conv => lhs; unfold expr
    rw [h3, hc]; rfl
  simp [stmt, this]

section
variable {f : FileD}

theorem mem_msg {t : Bytes × List FieldD} (ht : t ∈ f.types) {d : Decl} (hd : d ∈ msgDecls t.1 t.2) : d ∈ program f := by
  rw [program_units]
  refine List.mem_append_right _ (List.mem_flatMap.mpr ⟨.msg t.1 t.2, mem_units_type ht _ ?_, hd⟩)
  simp [typeUnits]

theorem mem_mapUnit {t : Bytes × List FieldD} (ht : t ∈ f.types) {g : FieldD} (hg : g ∈ t.2) {kk : PKind} (hs : g.shape = .map kk) {d : Decl}
    (hd : d ∈ (Unit.map t.1 g kk).decls) : d ∈ program f := by
  rw [program_units]
  refine List.mem_append_right _ (List.mem_flatMap.mpr ⟨.map t.1 g kk, mem_units_type ht _ (List.mem_append_left _ (List.mem_flatMap.mpr ⟨g, hg, ?_⟩)), hd⟩)
  simp [mapUnits, hs]

/-- The statements of `decode`. -/
def decodeBody [Lib] (t : Bytes × List FieldD) : List Stmt :=
  [.if1 (.call0 (.sel vd go!"Nil")) (block [.ret1 vnil])] ++ (if !t.2.isEmpty then [.var go!"err" terror] else []) ++
    ((t.2.filter FieldD.isValue).flatMap fun f => decValue (camel f.name) f.kind (camel f.type)) ++ (if t.2.any FieldD.isSlice then [.var go!"sliceSize" tuint32] else []) ++
    ((t.2.filter FieldD.isSlice).flatMap fun f => decSlice (camel f.name) f.kind (manyTy f.kind f.type) (camel f.type)) ++
    ((t.2.filter FieldD.isMessage).flatMap (decMessageField t.1)) ++ [.ret1 vnil]

theorem decode_compiles (h : compiles (program f) = true) {t : Bytes × List FieldD} (ht : t ∈ f.types) :
    ∃ Γ', stmt (program f) (some tError) (block (decodeBody t)) ⟨[(go!"x", .ptr (.name (camel t.1))), (go!"d", tDecoder)], [go!"x", go!"d"]⟩ = some Γ' := by
  have : decl (program f) (decodeDecl t.1 t.2) = true := by
    simp only [compiles, Bool.and_eq_true, List.all_eq_true] at h
    exact h.1.1.1.1.1.2 _ (mem_msg ht (by simp [msgDecls]))
  exact func_body this

theorem names_body (h : f.Wf) {t : Bytes × List FieldD} (ht : t ∈ f.types) {n : Ident} (hl : Lower n) (h1 : n ∉ [go!"err"]) (h2 : n ∉ [go!"sliceSize"]) :
    ∀ q ∈ decodeBody t, n ∉ newNames q := by
  intro q hq
  unfold decodeBody at hq
  simp only [List.append_assoc, List.mem_append] at hq
  rcases hq with hq | hq | hq | hq | hq | hq | hq
  · rw [List.mem_singleton] at hq; subst hq; exact List.not_mem_nil
  · split at hq
    · rw [List.mem_singleton] at hq; subst hq; exact h1
    · cases hq
  · obtain ⟨g, hg, hq⟩ := List.mem_flatMap.mp hq
    exact names_value h ht (List.mem_filter.mp hg).1 hl q hq
  · split at hq
    · rw [List.mem_singleton] at hq; subst hq; exact h2
    · cases hq
  · obtain ⟨g, _, hq⟩ := List.mem_flatMap.mp hq
    rw [names_slice _ _ _ _ _ hq]; exact List.not_mem_nil
  · obtain ⟨g, _, hq⟩ := List.mem_flatMap.mp hq
    rw [names_message _ _ _ hq]; exact List.not_mem_nil
  · rw [List.mem_singleton] at hq; subst hq; exact List.not_mem_nil

/-- What the loop over a repeated field assigns. -/
theorem slice_step (h : compiles (program f) = true) (hw : f.Wf) {t : Bytes × List FieldD} (ht : t ∈ f.types) {g : FieldD} (hg : g ∈ t.2) (hs : g.shape = .many)
    (hk : g.kind ≠ .message) : ∃ Γ Γ', Γ.vars.lookup go!"d" = some tDecoder ∧ Γ.vars.lookup go!"x" = some (.ptr (.name (camel t.1))) ∧
      stmt (program f) (some tError) (.assign2 (.index (xf (camel g.name)) vi) verr (.call0 (.sel vd (method g.kind)))) Γ = some Γ' := by
  obtain ⟨Γ', hd⟩ := decode_compiles h ht
  have hmem : .for3 go!"i" (uint32 (.num go!"0")) (.lt vi vsize) (block ([.assign2 (.index (xf (camel g.name)) vi) verr (.call0 (.sel vd (method g.kind)))] ++ [check])) ∈
      decodeBody t := by
    unfold decodeBody
    refine List.mem_append_left _ (List.mem_append_left _ (List.mem_append_right _ (List.mem_flatMap.mpr ⟨g, List.mem_filter.mpr ⟨hg, by simp [FieldD.isSlice, hs]⟩, ?_⟩)))
    simp [decSlice, if_neg hk]
  obtain ⟨Γ1, Γ2, h1, h2⟩ := block_mem hd hmem
  obtain ⟨Γ3, Γ4, h3, h4⟩ := for3_body h1
  obtain ⟨Γ5, Γ6, h5, h6⟩ := block_mem h3 (List.mem_append_left _ (List.mem_singleton_self _))
  have hin : ∀ n, ∀ q ∈ [Stmt.assign2 (.index (xf (camel g.name)) vi) verr (.call0 (.sel vd (method g.kind)))] ++ [check], n ∉ newNames q := by
    intro n q hq
    simp only [List.singleton_append, List.mem_cons, List.not_mem_nil, or_false] at hq
    rcases hq with rfl | rfl <;> exact List.not_mem_nil
  refine ⟨Γ5, Γ6, ?_, ?_, h5⟩
  · rw [h6 _ (hin _), h4 _ (by decide +kernel), h2 _ (names_body hw ht ⟨_, _, rfl, by decide⟩ (by decide +kernel) (by decide +kernel))]
    exact (lookup_cons_ne (by decide +kernel) ..).trans (lookup_cons_self ..)
  · rw [h6 _ (hin _), h4 _ (by decide +kernel), h2 _ (names_body hw ht ⟨_, _, rfl, by decide⟩ (by decide +kernel) (by decide +kernel))]
    exact lookup_cons_self ..

theorem no_repeated_bytes (h : compiles (program f) = true) (hw : f.Wf) {t : Bytes × List FieldD} (ht : t ∈ f.types) {g : FieldD} (hg : g ∈ t.2) (hs : g.shape = .many) :
    g.kind ≠ .bytes := by
  intro hk
  obtain ⟨Γ, Γ', hd, _, hst⟩ := slice_step h hw ht hg hs (by rw [hk]; decide)
  rw [hk] at hst
  exact no_bytes hd hst

theorem no_bytes_values (h : compiles (program f) = true) {t : Bytes × List FieldD} (ht : t ∈ f.types) {g : FieldD} (hg : g ∈ t.2) {kk : PKind} (hs : g.shape = .map kk) :
    g.kind ≠ .bytes := by
  intro hk
  have hdecl : decl (program f) (decodeMapFunc (mapName t.1 g) kk g.kind (camel g.type)) = true := by
    simp only [compiles, Bool.and_eq_true, List.all_eq_true] at h
    exact h.1.1.1.1.1.2 _ (mem_mapUnit ht hg hs (by simp [Unit.decls]))
  obtain ⟨Γ', hd⟩ := func_body hdecl
  rw [hk, if_neg (by decide)] at hd
  obtain ⟨Γ1, Γ2, h1, h2⟩ := block_mem hd (s := mapLoop kk .bytes (camel g.type)) (by simp [mapLoop, mapBody])
  obtain ⟨Γ3, Γ4, h3, h4⟩ := for3_body h1
  obtain ⟨Γ5, Γ6, h5, h6⟩ := block_mem h3 (s := .assign2 (.var go!"v") verr (.call0 (.sel vd (method .bytes)))) (by
    unfold mapBody
    exact List.mem_append_left _ (List.mem_append_right _ (List.mem_singleton_self _)))
  refine no_bytes ?_ h5
  rw [h6 _ fun q hq => by rw [names_mapBody _ _ _ q hq]; exact List.not_mem_nil, h4 _ (by decide +kernel), h2]
  · exact (lookup_cons_ne (by decide +kernel) ..).trans (lookup_cons_self ..)
  · intro q hq
    simp only [List.append_nil, List.cons_append, List.nil_append, List.mem_cons, List.not_mem_nil, or_false] at hq
    rcases hq with rfl | rfl | rfl | rfl | rfl | rfl <;> simp only [newNames] <;> decide +kernel

theorem not_uses_decMap (f : Ident) (kk k : PKind) (t : Ident) : uses go!"err" (decMap f kk k t) = false := by
  have h1 : ∀ k, mentions go!"err" (kindConst k) = false := by intro k; cases k <;> decide +kernel
  have h2 : mentions go!"err" vd = false := by decide +kernel
  simp [decMap, uses, mentions, block, newNames, h1, h2]

theorem no_maps_only (h : compiles (program f) = true) {t : Bytes × List FieldD} (ht : t ∈ f.types) (hne : t.2 ≠ []) : ∃ g ∈ t.2, ∀ kk, g.shape ≠ .map kk := by
  apply Classical.byContradiction
  intro hno
  have hall : ∀ g ∈ t.2, ∃ kk, g.shape = .map kk := by
    intro g hg
    apply Classical.byContradiction
    intro hg'
    exact hno ⟨g, hg, fun kk hk => hg' ⟨kk, hk⟩⟩
  have hv : t.2.filter FieldD.isValue = [] := by
    rw [List.filter_eq_nil_iff]
    intro g hg
    obtain ⟨kk, hk⟩ := hall g hg
    simp [FieldD.isValue, hk]
  have hsl : t.2.filter FieldD.isSlice = [] := by
    rw [List.filter_eq_nil_iff]
    intro g hg
    obtain ⟨kk, hk⟩ := hall g hg
    simp [FieldD.isSlice, hk]
  have hany : t.2.any FieldD.isSlice = false := by
    rw [List.any_eq_false]
    intro g hg
    obtain ⟨kk, hk⟩ := hall g hg
    simp [FieldD.isSlice, hk]
  have hemp : (!t.2.isEmpty) = true := by simpa using hne
  obtain ⟨Γ', hd⟩ := decode_compiles h ht
  rw [decodeBody, hv, hsl, hany, if_pos hemp] at hd
  simp only [List.flatMap_nil, List.append_nil, Bool.false_eq_true, if_false, List.append_assoc] at hd
  obtain ⟨_, _, _, h2, _⟩ := block_split [.if1 (.call0 (.sel vd go!"Nil")) (block [.ret1 vnil])] hd
  simp only [newNames, List.all_cons, List.all_nil, Bool.and_true] at h2
  have hne' : go!"err" ≠ go!"_" := by decide +kernel
  rw [usedIn, decide_eq_false hne', Bool.false_or] at h2
  have hnot : ∀ l : List FieldD, (∀ g ∈ l, g ∈ t.2) → uses go!"err" (block (l.flatMap (decMessageField t.1) ++ [.ret1 vnil])) = false := by
    intro l
    induction l with
    | nil => intro _; show uses go!"err" (block [.ret1 vnil]) = false; decide +kernel
    | cons g l ih =>
      intro hl
      obtain ⟨kk, hk⟩ := hall g (hl g (List.mem_cons_self ..))
      have hm : decMessageField t.1 g = [decMap (camel g.name) kk g.kind (mapName t.1 g)] := by
        unfold decMessageField
        rw [hk]
      rw [List.flatMap_cons, hm]
      show (uses go!"err" (decMap (camel g.name) kk g.kind (mapName t.1 g)) || (!(newNames (decMap (camel g.name) kk g.kind (mapName t.1 g))).contains go!"err" &&
        uses go!"err" (block (l.flatMap (decMessageField t.1) ++ [.ret1 vnil])))) = false
      rw [ih fun g' hg' => hl g' (List.mem_cons_of_mem _ hg'), not_uses_decMap]
      simp
  replace h2 : uses go!"err" (block ((t.2.filter FieldD.isMessage).flatMap (decMessageField t.1) ++ [.ret1 vnil])) = true := h2
  rw [hnot (t.2.filter FieldD.isMessage) fun g hg => (List.mem_filter.mp hg).1] at h2
  cases h2

/-! ## Declarations -/

theorem struct_compiles (h : compiles (program f) = true) {t : Bytes × List FieldD} (ht : t ∈ f.types) :
    (t.2.map fun g => camel g.name).Nodup ∧ ∀ g ∈ t.2, typeOk (program f) [] (fieldTy t.1 g) = true ∧ findMethod (program f) (camel t.1) (camel g.name) = none := by
  have : decl (program f) (.struct (camel t.1) (t.2.map fun g => (camel g.name, fieldTy t.1 g))) = true := by
    simp only [compiles, Bool.and_eq_true, List.all_eq_true] at h
    exact h.1.1.1.1.1.2 _ (mem_msg ht (List.mem_cons_self ..))
  simp only [decl, Bool.and_eq_true, List.all_eq_true, decide_eq_true_eq, List.map_map] at this
  refine ⟨this.1, fun g hg => ?_⟩
  have hg' := this.2 _ (List.mem_map.mpr ⟨g, hg, rfl⟩)
  exact ⟨hg'.1.1, by simpa using hg'.2⟩

theorem findMethod_some {P : List Decl} {x : Ident} {v : Ty} {n m : Ident} {ps : List (Ident × Ty)} {r : Option Ty} {b : Stmt} (h : .func (some (x, v)) m ps r b ∈ P)
    (hv : base v = some n) : findMethod P n m ≠ none := by
  rw [findMethod, Ne, List.findSome?_eq_none_iff]
  intro hn
  have := hn _ h
  simp [hv] at this

theorem no_method_fields (h : compiles (program f) = true) {t : Bytes × List FieldD} (ht : t ∈ f.types) {g : FieldD} (hg : g ∈ t.2) : camel g.name ∉ methodNames := by
  have hnone := ((struct_compiles h ht).2 g hg).2
  intro hm
  simp only [methodNames, List.mem_cons, List.not_mem_nil, or_false] at hm
  rcases hm with e | e | e <;> rw [e] at hnone
  · exact findMethod_some (mem_msg ht (d := errorFunc (camel t.1)) (by simp [msgDecls])) rfl hnone
  · exact findMethod_some (mem_msg ht (d := encodeDecl t.1 t.2) (by simp [msgDecls])) rfl hnone
  · exact findMethod_some (mem_msg ht (d := decodeApi (camel t.1)) (by simp [msgDecls])) rfl hnone

theorem declared_of_typeOk {P : List Decl} {Γ : Vars} {n : Ident} (h : typeOk P Γ (.name n) = true) (hn : Upper n) : n ∈ declared P := by
  apply Classical.byContradiction
  intro hd
  have h1 := findType_none hd
  have h2 := findStruct_none hd
  have h3 : basicTypes.contains n = false := by
    simp only [List.contains_eq_mem, decide_eq_false_iff_not]
    exact fun hm => not_keep_upper hn (basic_keep n hm)
  simp [typeOk, isDefined, h1, h2] at h
  simp only [List.contains_eq_mem, decide_eq_false_iff_not] at h3
  exact h3 h.2

/-- The Go name of the type of a field is declared; the type of a map field is looked at through the declaration of the map type. -/
theorem types_declared (h : compiles (program f) = true) (hw : f.Wf) {t : Bytes × List FieldD} (ht : t ∈ f.types) {g : FieldD} (hg : g ∈ t.2)
    (hk : g.kind = .message ∨ g.kind = .enum ∧ g.shape ≠ .many) : camel g.type ∈ declared (program f) := by
  have hwg := (hw.typeWf ht).fields g hg
  have hup : Upper (camel g.type) := upper_camel (hwg.type (by rcases hk with e | ⟨e, _⟩ <;> simp [e]))
  have hty := ((struct_compiles h ht).2 g hg).1
  have helem : typeOk (program f) [] (elemTy g.kind (camel g.type)) = true → camel g.type ∈ declared (program f) := by
    intro he
    rcases hk with e | ⟨e, _⟩ <;> rw [e] at he
    · exact declared_of_typeOk (Γ := []) (show typeOk (program f) [] (.name (camel g.type)) = true from he) hup
    · exact declared_of_typeOk he hup
  cases hs : g.shape with
  | one r =>
    simp only [fieldTy, hs] at hty
    exact helem hty
  | many =>
    have hmsg : g.kind = .message := by
      rcases hk with e | ⟨_, e⟩
      · exact e
      · exact absurd hs e
    simp only [fieldTy, hs, hmsg, manyTy] at hty
    exact helem (by rw [hmsg]; exact hty)
  | map kk =>
    have hdecl : decl (program f) (.type (mapName t.1 g) (.map (scalarTy kk) (elemTy g.kind (camel g.type)))) = true := by
      simp only [compiles, Bool.and_eq_true, List.all_eq_true] at h
      exact h.1.1.1.1.1.2 _ (mem_mapUnit ht hg hs (by simp [Unit.decls, mapDecls]))
    simp only [decl, typeOk, Bool.and_eq_true] at hdecl
    exact helem hdecl.1.1.2

theorem has_message (h : compiles (program f) = true) (hw : f.Wf) : f.types ≠ [] := by
  intro hno
  have hP := good_program (lib := lib) hw
  simp only [compiles, Bool.and_eq_true, List.all_eq_true] at h
  have hu := h.2 go!"polyglot" (by rw [hP.imports]; simp)
  obtain ⟨d, hd, hud⟩ := List.any_eq_true.mp hu
  rw [program_units] at hd
  rcases List.mem_append.mp hd with hd | hd
  · simp only [headDecls, List.mem_cons, List.not_mem_nil, or_false] at hd
    rcases hd with rfl | rfl | rfl
    · cases hud
    · cases hud
    · revert hud; cases lib <;> decide +kernel
  · obtain ⟨u, hu, hd⟩ := List.mem_flatMap.mp hd
    rcases units_mem hu with ⟨e, he, rfl⟩ | ⟨t, ht, _⟩
    · simp only [Unit.decls, enumDecls, List.mem_cons, List.not_mem_nil, or_false] at hd
      rcases hd with rfl | rfl
      · have hty : tyMentions go!"polyglot" tuint32 = false := by decide +kernel
        simp [usesPackage, hty] at hud
      · simp only [usesPackage, List.any_eq_true, List.mem_mapIdx] at hud
        obtain ⟨_, ⟨i, hi, rfl⟩, hm⟩ := hud
        have hup : Upper (camel (qualify e.1 e.2.name)) := upper_camel (.qualify (hw.enumWf he).1 (hw.enumWf he).2.1)
        have hne : camel (qualify e.1 e.2.name) ≠ go!"polyglot" := upper_ne hup ⟨_, _, rfl, by decide⟩
        simp [mentions, hne] at hm
    · rw [hno] at ht; cases ht

theorem not_main (h : compiles (program f) = true) : ofBytes (packageName f) ≠ go!"main" := by
  simp only [compiles, Bool.and_eq_true, List.all_eq_true] at h
  have := h.1.1.1.1.1.2 (.package (ofBytes (packageName f))) (by rw [program_units]; exact List.mem_append_left _ (by simp [headDecls]))
  simp only [decl, Bool.and_eq_true] at this
  simpa using this.2

theorem distinct_of_compiles (h : compiles (program f) = true) : (declared (program f)).Nodup := by
  simp only [compiles, Bool.and_eq_true, decide_eq_true_eq] at h
  exact h.1.1.1.1.2

/-- The element type of a repeated enum is `uint32`. -/
theorem repeated_enum (h : compiles (program f) = true) (hw : f.Wf) {t : Bytes × List FieldD} (ht : t ∈ f.types) {g : FieldD} (hg : g ∈ t.2) (hs : g.shape = .many)
    (hk : g.kind = .enum) : repeatedEnum g.type = go!"uint32" := by
  obtain ⟨Γ, Γ', hd, hx, hst⟩ := slice_step h hw ht hg hs (by rw [hk]; decide)
  have hfs : findStruct (program f) (camel t.1) = some (t.2.map fun g => (camel g.name, fieldTy t.1 g)) :=
    findStruct_eq (distinct_of_compiles h) (mem_msg ht (List.mem_cons_self ..))
  obtain ⟨i, hi⟩ := List.getElem?_of_mem hg
  have hf : expr (program f) Γ.vars (xf (camel g.name)) = some (.vals [.slice (.name (repeatedEnum g.type))]) := by
    have hso : structOf (program f) (.ptr (.name (camel t.1))) = some (t.2.map fun g => (camel g.name, fieldTy t.1 g)) := hfs
    rw [xf, expr_sel (e := vx) (x_ne hx _), vx, expr_var hx, fieldOf, hso]
    simp only [GoRun.fieldIndex_eq (ty := fieldTy t.1) (struct_compiles h ht).1 hi, Option.map_some]
    simp only [fieldTy, hs, hk, manyTy]
  rw [hk] at hst
  simp only [stmt, expr_readEnum hd] at hst
  split at hst
  · rename_i hfit
    rw [Bool.and_eq_true] at hfit
    have hl := hfit.1
    unfold fits at hl
    rw [left, hf] at hl
    simp only [indexOf, underlying] at hl
    cases hvi : expr (program f) Γ.vars vi with
    | none => rw [hvi] at hl; simp at hl
    | some j =>
      rw [hvi] at hl
      by_cases hj : isIndex (program f) j = true
      · simp only [hj, if_true, assignable, tUint32, named, Bool.and_self, Bool.not_true, Bool.and_false, Bool.or_false, decide_eq_true_eq] at hl
        exact (Ty.name.inj hl).symm
      · simp [hj] at hl
  · cases hst

end

end GoCheck
