import Verif.Text.GoCheckDecode

/-!
# The generated functions compile
-/

namespace GoCheck

open Utils Text GoAst GoText
open Gen (PKind Field)
open Package (EnumD qualify)
open GoRun (findStruct findType findFunc findMethod findErr base Func structOf fieldIndex kinds tBool tUint32 tInt tError tBytes tBuffer tEncoder tDecoder tKind
  lookup_cons_ne lookup_cons_self)

variable {lib : Lib}

theorem terminates_last (e : Expr) : ∀ ss : List Stmt, terminates (block (ss ++ [.ret1 e])) = true
  | [] => rfl
  | [s] => rfl
  | s :: s' :: ss => by
    have := terminates_last e (s' :: ss)
    exact this

section
variable {f : FileD}

theorem typeOk_ptr {P : List Decl} {Γ : Vars} {t : Ty} (h : typeOk P Γ t = true) : typeOk P Γ (.ptr t) = true := h

theorem names_value (h : f.Wf) {t : Bytes × List FieldD} (ht : t ∈ f.types) {g : FieldD} (hg : g ∈ t.2) {m : Ident} (hm : Lower m) :
    ∀ s ∈ decValue (camel g.name) g.kind (camel g.type), m ∉ newNames s := by
  intro s hs
  unfold decValue at hs
  rcases List.mem_append.mp hs with hs | hs
  · split at hs
    · rw [List.mem_singleton] at hs; subst hs; simp [newNames]
    · simp only [List.mem_cons, List.not_mem_nil, or_false] at hs
      rcases hs with rfl | rfl | rfl
      · rw [newNames, List.mem_singleton]
        exact lower_ne ((upper_name h ht hg).append _) hm
      · simp [newNames]
      · simp [newNames]
    · rw [List.mem_singleton] at hs; subst hs; simp [newNames]
  · rw [List.mem_singleton] at hs; subst hs; simp [newNames, check]

theorem names_slice (a : Ident) (k : PKind) (et : Ty) (b : Ident) : ∀ s ∈ decSlice a k et b, newNames s = [] := by
  intro s hs
  simp only [decSlice, List.mem_cons, List.not_mem_nil, or_false] at hs
  rcases hs with rfl | rfl | rfl | rfl <;> rfl

theorem names_message (o : Bytes) (g : FieldD) : ∀ s ∈ decMessageField o g, newNames s = [] := by
  intro s hs
  unfold decMessageField at hs
  split at hs
  · rw [List.mem_singleton] at hs; subst hs; rfl
  · cases lib <;> simp only [decMessage, Lib.pick, List.mem_cons, List.not_mem_nil, or_false] at hs
    · rcases hs with rfl | rfl | rfl <;> rfl
    · subst hs; rfl

theorem uses_check : uses go!"err" check = true := by decide +kernel

theorem uses_decMessage (a b : Ident) : ∃ s ∈ decMessage a b, uses go!"err" s = true := by
  cases lib with
  | v1 => exact ⟨check, by simp [decMessage, Lib.pick], uses_check⟩
  | v2 =>
    refine ⟨_, List.mem_singleton.mpr rfl, ?_⟩
    rw [uses, uses_block (n := go!"err") ⟨check, by simp, uses_check⟩]
    · simp
    · intro s hs
      simp only [List.mem_cons, List.not_mem_nil, or_false] at hs
      rcases hs with rfl | rfl | rfl <;> simp [newNames, check]

theorem keeps_messageField (h : f.Plain) {t : Bytes × List FieldD} (ht : t ∈ f.types) {Γ : Env} (hs : DecScope f Γ.vars (.ptr (.name (camel t.1))))
    {g : FieldD} (hg : g ∈ t.2) (hm : g.isMessage = true) (hun : Free (g.mentions t.1) Γ.vars) : Keeps (program f) (some tError) (decMessageField t.1 g) Γ := by
  unfold decMessageField
  unfold FieldD.isMessage at hm
  cases hsh : g.shape with
  | many => simp [hsh] at hm
  | one r =>
    simp only [hsh, decide_eq_true_eq] at hm
    exact keeps_decMessage h ht hs hg hsh hm hun
  | map kk => exact keeps_decMap h ht hs hg hsh hun

theorem stmt_retNil {P : List Decl} (hP : Good P) {Γ : Env} (hΓ : Open Γ.vars) : stmt P (some tError) (.ret1 vnil) Γ = some Γ :=
  stmt_ret1 (expr_nil hP hΓ) (nilable_error hP)

theorem keeps_isNil {P : List Decl} (hP : Good P) {Γ : Env} (hΓ : Open Γ.vars) (hd : Γ.vars.lookup go!"d" = some tDecoder) :
    Keeps P (some tError) [.if1 (.call0 (.sel vd go!"Nil")) (block [.ret1 vnil])] Γ := by
  refine .one (stmt_if1 (Γ' := Γ.inner) ?_ (Keeps.one (stmt_retNil (Γ := Γ.inner) hP hΓ) rfl rfl).done) rfl rfl
  rw [expr_call0 (callee_decoder hd (m := go!"Nil") (s := ⟨[], [tBool]⟩) (by cases lib <;> decide +kernel)) rfl]
  exact bool_ok hP

/-- From `var sliceSize uint32` on. -/
theorem decode_tail (h : f.Plain) {t : Bytes × List FieldD} (ht : t ∈ f.types) {Γ : Env} (hs : DecInv f ((afterValues t.2).flatMap (FieldD.mentions t.1)) Γ (.ptr (.name (camel t.1)))) :
    ∃ Γ', stmt (program f) (some tError) (block ((if t.2.any FieldD.isSlice then [.var go!"sliceSize" tuint32] else []) ++
      ((t.2.filter FieldD.isSlice).flatMap (fun f => decSlice (camel f.name) f.kind (manyTy f.kind f.type) (camel f.type)) ++
      ((t.2.filter FieldD.isMessage).flatMap (decMessageField t.1) ++ [.ret1 vnil])))) Γ = some Γ' := by
  have hP := good_program (lib := lib) h.wf
  have hmsgs : ∀ {Γ : Env}, DecScope f Γ.vars (.ptr (.name (camel t.1))) → Free ((afterValues t.2).flatMap (FieldD.mentions t.1)) Γ.vars →
      Keeps (program f) (some tError) ((t.2.filter FieldD.isMessage).flatMap (decMessageField t.1)) Γ := by
    intro Γ hs hun
    exact Keeps.all _ fun g hg => keeps_messageField h ht hs (List.mem_filter.mp hg).1 (List.mem_filter.mp hg).2
      (hun.mono fun n hn => List.mem_flatMap.mpr ⟨g, List.mem_append_right _ hg, hn⟩)
  by_cases hany : t.2.any FieldD.isSlice = true
  · rw [if_pos hany]
    refine ⟨⟨(go!"sliceSize", tUint32) :: Γ.vars, go!"sliceSize" :: Γ.block⟩, ?_⟩
    rw [List.singleton_append, stmt_block_cons]
    have hvar : stmt (program f) (some tError) (.var go!"sliceSize" tuint32) Γ = some ⟨(go!"sliceSize", tUint32) :: Γ.vars, go!"sliceSize" :: Γ.block⟩ := by
      have h1 : typeOk (program f) Γ.vars tUint32 = true := typeOk_basic hs.scope.o (by decide +kernel)
      have h2 : go!"sliceSize" ≠ go!"_" := by decide +kernel
      have h3 : Γ.block.contains go!"sliceSize" = false := by simpa using hs.size
      show (if typeOk (program f) Γ.vars tUint32 then Γ.declare go!"sliceSize" tUint32 else none) = _
      rw [h1, Env.declare, if_neg h2, h3]
      rfl
    rw [hvar]
    obtain ⟨g, hg, hgs⟩ := List.any_eq_true.mp hany
    have huse : usedIn go!"sliceSize" (block ((t.2.filter FieldD.isSlice).flatMap (fun f => decSlice (camel f.name) f.kind (manyTy f.kind f.type) (camel f.type)) ++
      ((t.2.filter FieldD.isMessage).flatMap (decMessageField t.1) ++ [.ret1 vnil]))) = true := by
      rw [usedIn, uses_block, Bool.or_true]
      · refine ⟨.if1 (.ne (uint32 (len (xf (camel g.name)))) vsize) (block [.assign (xf (camel g.name)) (.make (.slice (manyTy g.kind g.type)) vsize)]), ?_, ?_⟩
        · refine List.mem_append_left _ (List.mem_flatMap.mpr ⟨g, List.mem_filter.mpr ⟨hg, hgs⟩, ?_⟩)
          simp [decSlice]
        · simp [uses, mentions, vsize]
      · intro s hs
        rcases List.mem_append.mp hs with hs | hs
        · obtain ⟨g, _, hs⟩ := List.mem_flatMap.mp hs
          rw [names_slice _ _ _ _ _ hs]; exact List.not_mem_nil
        · rcases List.mem_append.mp hs with hs | hs
          · obtain ⟨g, _, hs⟩ := List.mem_flatMap.mp hs
            rw [names_message _ _ _ hs]; exact List.not_mem_nil
          · rw [List.mem_singleton] at hs; subst hs; simp [newNames]
    simp only [simple, newNames, List.all_cons, huse, List.all_nil, Bool.and_self, if_true]
    have hs2 : DecScope f ((go!"sliceSize", tUint32) :: Γ.vars) (.ptr (.name (camel t.1))) :=
      hs.scope.cons (by decide +kernel) (by decide +kernel) (by decide +kernel) (by decide +kernel) _
    have hun2 : Free ((afterValues t.2).flatMap (FieldD.mentions t.1)) ((go!"sliceSize", tUint32) :: Γ.vars) := hs.free.cons (not_mem_lower (fun n hn => by
      obtain ⟨g, hg, hn⟩ := List.mem_flatMap.mp hn
      exact mentions_upper h.wf ht (afterValues_mem g hg) n hn) ⟨_, _, rfl, by decide⟩) _
    refine Keeps.done (.append (Keeps.all _ fun g hg => ?_) (.append (hmsgs hs2 hun2) (.one (stmt_retNil hP hs2.o) rfl rfl)))
    obtain ⟨h1, h2⟩ := List.mem_filter.mp hg
    refine keeps_decSlice h ht hs2 (lookup_cons_self ..) h1 ?_ (hun2.mono fun n hn => List.mem_flatMap.mpr ⟨g, List.mem_append_left _ hg, hn⟩)
    unfold FieldD.isSlice at h2
    split at h2
    · assumption
    · cases h2
  · rw [if_neg hany]
    have hnone : t.2.filter FieldD.isSlice = [] := by
      rw [List.filter_eq_nil_iff]
      intro g hg hgs
      exact hany (List.any_eq_true.mpr ⟨g, hg, hgs⟩)
    rw [hnone]
    exact ⟨Γ, Keeps.done (Keeps.append (a := (t.2.filter FieldD.isMessage).flatMap (decMessageField t.1)) (hmsgs hs.scope hs.free) (.one (stmt_retNil hP hs.scope.o) rfl rfl))⟩

/-- The variable `err` of `decode` is used. -/
theorem uses_err (h : f.Plain) {t : Bytes × List FieldD} (ht : t ∈ f.types) (hne : t.2 ≠ []) :
    uses go!"err" (block ((t.2.filter FieldD.isValue).flatMap (fun f => decValue (camel f.name) f.kind (camel f.type)) ++
      ((if t.2.any FieldD.isSlice then [.var go!"sliceSize" tuint32] else []) ++
      ((t.2.filter FieldD.isSlice).flatMap (fun f => decSlice (camel f.name) f.kind (manyTy f.kind f.type) (camel f.type)) ++
      ((t.2.filter FieldD.isMessage).flatMap (decMessageField t.1) ++ [.ret1 vnil]))))) = true := by
  apply uses_block
  · have hsup := (h.supported (t.2.map (FieldD.toField f)) (List.mem_map.mpr ⟨t, ht, rfl⟩)).2
    rcases hsup with hsup | ⟨q, hq, hm⟩
    · exact absurd (List.map_eq_nil_iff.mp hsup) hne
    · obtain ⟨g, hg, rfl⟩ := List.mem_map.mp hq
      cases hsh : g.shape with
      | map kk => simp [FieldD.toField, hsh, Field.IsMap] at hm
      | many =>
        refine ⟨check, List.mem_append_right _ (List.mem_append_right _ (List.mem_append_left _ (List.mem_flatMap.mpr
          ⟨g, List.mem_filter.mpr ⟨hg, by simp [FieldD.isSlice, hsh]⟩, by simp [decSlice]⟩))), uses_check⟩
      | one r =>
        by_cases hk : g.kind = .message
        · obtain ⟨s, hs, hu⟩ := uses_decMessage (lib := lib) (camel g.name) (camel g.type)
          refine ⟨s, List.mem_append_right _ (List.mem_append_right _ (List.mem_append_right _ (List.mem_append_left _ (List.mem_flatMap.mpr
            ⟨g, List.mem_filter.mpr ⟨hg, by simp [FieldD.isMessage, hsh, hk]⟩, ?_⟩)))), hu⟩
          simp only [decMessageField, hsh]
          exact hs
        · refine ⟨check, List.mem_append_left _ (List.mem_flatMap.mpr ⟨g, List.mem_filter.mpr ⟨hg, by simp [FieldD.isValue, hsh, hk]⟩, ?_⟩), uses_check⟩
          simp [decValue]
  · intro s hs
    rcases List.mem_append.mp hs with hs | hs
    · obtain ⟨g, hg, hs⟩ := List.mem_flatMap.mp hs
      exact names_value h.wf ht (List.mem_filter.mp hg).1 ⟨_, _, rfl, by decide⟩ s hs
    · rcases List.mem_append.mp hs with hs | hs
      · split at hs
        · rw [List.mem_singleton] at hs; subst hs
          show go!"err" ∉ [go!"sliceSize"]
          decide +kernel
        · cases hs
      · rcases List.mem_append.mp hs with hs | hs
        · obtain ⟨g, _, hs⟩ := List.mem_flatMap.mp hs
          rw [names_slice _ _ _ _ _ hs]; exact List.not_mem_nil
        · rcases List.mem_append.mp hs with hs | hs
          · obtain ⟨g, _, hs⟩ := List.mem_flatMap.mp hs
            rw [names_message _ _ _ hs]; exact List.not_mem_nil
          · rw [List.mem_singleton] at hs; subst hs; simp [newNames]

theorem decl_decode (h : f.Plain) (hu : f.Unhidden) {t : Bytes × List FieldD} (ht : t ∈ f.types) : decl (program f) (decodeDecl t.1 t.2) = true := by
  have hP := good_program (lib := lib) h.wf
  unfold decodeDecl decodeFunc
  have ho : Open [(go!"x", Ty.ptr (.name (camel t.1))), (go!"d", tDecoder)] := (Open.nil.cons (by decide +kernel) _).cons (by decide +kernel) _
  have hd : List.lookup go!"d" [(go!"x", Ty.ptr (.name (camel t.1))), (go!"d", tDecoder)] = some tDecoder :=
    (lookup_cons_ne (by decide +kernel) ..).trans (lookup_cons_self ..)
  refine decl_method (receiver_ptr h ht) ?_ ?_ ?_ ?_ (.inr (terminates_last ..))
  · show [go!"x", go!"d"].Nodup
    decide +kernel
  · intro q hq
    simp only [List.mem_cons, List.not_mem_nil, or_false] at hq
    rcases hq with rfl | rfl
    · exact typeOk_struct (lib := lib) (find_struct h ht) rfl
    · exact typeOk_lib hP (by cases lib <;> decide +kernel)
  · intro u hu
    rw [Option.toList_some, List.mem_singleton] at hu
    subst hu
    exact typeOk_basic (lib := lib) Open.nil (by decide +kernel)
  · simp only [List.append_assoc]
    have hnil := keeps_isNil (P := program f) hP (Γ := ⟨[(go!"x", Ty.ptr (.name (camel t.1))), (go!"d", tDecoder)], [go!"x", go!"d"]⟩) ho hd
    show ∃ Γ', stmt (program f) (some tError) _ ⟨[(go!"x", Ty.ptr (.name (camel t.1))), (go!"d", tDecoder)], [go!"x", go!"d"]⟩ = some Γ'
    rw [hnil]
    by_cases hne : t.2 = []
    · simp only [hne, List.isEmpty_nil, Bool.not_true, Bool.false_eq_true, if_false, List.filter_nil, List.flatMap_nil, List.any_nil, List.nil_append]
      exact ⟨_, (Keeps.one (stmt_retNil hP ho) rfl rfl).done⟩
    · have hemp : (!t.2.isEmpty) = true := by simpa using hne
      rw [if_pos hemp, List.singleton_append, stmt_block_cons]
      have hvar : stmt (program f) (some tError) (.var go!"err" terror) ⟨[(go!"x", Ty.ptr (.name (camel t.1))), (go!"d", tDecoder)], [go!"x", go!"d"]⟩ =
          some ⟨[(go!"err", tError), (go!"x", Ty.ptr (.name (camel t.1))), (go!"d", tDecoder)], [go!"err", go!"x", go!"d"]⟩ := by
        have h1 : typeOk (program f) [(go!"x", Ty.ptr (.name (camel t.1))), (go!"d", tDecoder)] tError = true := typeOk_basic ho (by decide +kernel)
        show (if typeOk (program f) [(go!"x", Ty.ptr (.name (camel t.1))), (go!"d", tDecoder)] tError then
          Env.declare ⟨[(go!"x", Ty.ptr (.name (camel t.1))), (go!"d", tDecoder)], [go!"x", go!"d"]⟩ go!"err" tError else none) = _
        have h2 : go!"err" ≠ go!"_" := by decide +kernel
        have h3 : [go!"x", go!"d"].contains go!"err" = false := by decide +kernel
        rw [h1, Env.declare, if_neg h2, h3]
        rfl
      rw [hvar]
      have huse := uses_err h ht hne
      have huse' : ∀ s, uses go!"err" s = true → usedIn go!"err" s = true := by intro s hs; rw [usedIn, hs, Bool.or_true]
      simp only [simple, newNames, List.all_cons, huse' _ huse, List.all_nil, Bool.and_self, if_true]
      have hinv : DecInv f ((t.2.filter FieldD.isValue ++ afterValues t.2).flatMap (FieldD.mentions t.1)) ⟨[(go!"err", tError), (go!"x", Ty.ptr (.name (camel t.1))), (go!"d", tDecoder)], [go!"err", go!"x", go!"d"]⟩ (.ptr (.name (camel t.1))) := by
        refine ⟨⟨ho.cons (by decide +kernel) _, ?_, ?_, lookup_cons_self ..⟩, ?_, ?_⟩
        · rw [lookup_cons_ne (by decide +kernel), lookup_cons_self]
        · rw [lookup_cons_ne (by decide +kernel)]; exact hd
        · refine Free.cons (Free.cons (Free.cons (fun _ _ => rfl) ?_ _) ?_ _) ?_ _ <;>
            exact not_mem_lower (needs_upper h.wf ht (fun _ h => h) afterValues_mem) ⟨_, _, rfl, by decide⟩
        · show go!"sliceSize" ∉ [go!"err", go!"x", go!"d"]
          decide +kernel
      obtain ⟨Γ', hΓ', hstep⟩ := steps_values h ht (afterValues t.2) (t.2.filter FieldD.isValue) (fun g hg => ⟨(List.mem_filter.mp hg).1, (List.mem_filter.mp hg).2⟩)
        (((List.filter_sublist (l := t.2)).map _).nodup (h.fields t ht)) (fun pre g post hp hen hn => by
          obtain ⟨g', hg', hn⟩ := List.mem_flatMap.mp hn
          have hv : g.isValue = true := (List.mem_filter.mp (hp ▸ List.mem_append_right _ (List.mem_cons_self ..) : g ∈ t.2.filter FieldD.isValue)).2
          obtain ⟨r, hs⟩ : ∃ r, g.shape = .one r := by cases hsh : g.shape <;> simp [FieldD.isValue, hsh] at hv ⊢
          exact hu.temp t ht pre g (post ++ afterValues t.2) (by rw [decodingOrder, hp, List.append_assoc]; rfl) hen r hs g' hg' hn) _ hinv (by
          intro g hg hm
          have hup : Upper (temp g) := (upper_name h.wf ht (List.mem_filter.mp hg).1).append _
          have hlow : ∀ n ∈ [go!"err", go!"x", go!"d"], Lower n := by
            intro n hn
            simp only [List.mem_cons, List.not_mem_nil, or_false] at hn
            rcases hn with rfl | rfl | rfl <;> exact ⟨_, _, rfl, by decide⟩
          exact upper_ne hup (hlow _ hm) rfl)
      rw [hstep]
      exact decode_tail h ht hΓ'

theorem decl_decodeApi (h : f.Plain) {t : Bytes × List FieldD} (ht : t ∈ f.types) : decl (program f) (decodeApi (camel t.1)) = true := by
  have hP := good_program (lib := lib) h.wf
  unfold decodeApi
  have ho : Open [(go!"x", Ty.ptr (.name (camel t.1))), (go!"b", tBytes)] := (Open.nil.cons (by decide +kernel) _).cons (by decide +kernel) _
  have hb : List.lookup go!"b" [(go!"x", Ty.ptr (.name (camel t.1))), (go!"b", tBytes)] = some tBytes :=
    (lookup_cons_ne (by decide +kernel) ..).trans (lookup_cons_self ..)
  have hx : List.lookup go!"x" [(go!"x", Ty.ptr (.name (camel t.1))), (go!"b", tBytes)] = some (.ptr (.name (camel t.1))) := lookup_cons_self ..
  refine decl_method (receiver_ptr h ht) ?_ ?_ ?_ ?_ (.inr ?_)
  rotate_left 4
  · cases lib <;> rfl
  · show [go!"x", go!"b"].Nodup
    decide +kernel
  · intro q hq
    simp only [List.mem_cons, List.not_mem_nil, or_false] at hq
    rcases hq with rfl | rfl
    · exact typeOk_struct (lib := lib) (find_struct h ht) rfl
    · exact typeOk_basic (lib := lib) Open.nil (by decide +kernel)
  · intro u hu
    rw [Option.toList_some, List.mem_singleton] at hu
    subst hu
    exact typeOk_basic (lib := lib) Open.nil (by decide +kernel)
  · have hcheck : Keeps (program f) (some tError) [.if1 (.eq vx vnil) (block [.ret1 (.var errNil)])] ⟨[(go!"x", Ty.ptr (.name (camel t.1))), (go!"b", tBytes)], [go!"x", go!"b"]⟩ := by
      refine .one (stmt_if1 (isBool_eq hP ho (expr_var hx) rfl) (stmt_ret1_block (u := .vals [tError]) ?_ (assignable_self _))) rfl rfl
      have hl : List.lookup errNil [(go!"x", Ty.ptr (.name (camel t.1))), (go!"b", tBytes)] = none := by
        cases lib <;> exact (lookup_cons_ne (by decide +kernel) ..).trans (lookup_cons_ne (by decide +kernel) ..)
      show expr (program f) [(go!"x", Ty.ptr (.name (camel t.1))), (go!"b", tBytes)] _ = _
      simp only [expr, hl, packageVar, find_errNil, if_true]
    have hdec : expr (program f) [(go!"x", Ty.ptr (.name (camel t.1))), (go!"b", tBytes)] (.call1 (polyglot (Lib.pick go!"GetDecoder" go!"Decoder")) vb) = some (.vals [tDecoder]) := by
      have hc : callee (program f) [(go!"x", Ty.ptr (.name (camel t.1))), (go!"b", tBytes)] (polyglot (Lib.pick go!"GetDecoder" go!"Decoder")) = some (.func ⟨[tBytes], [tDecoder]⟩) := by
        simp only [polyglot, callee, isPackage_polyglot hP ho, if_true]
        cases lib <;> decide +kernel
      exact expr_call1 hc (expr_var hb) (args_one _)
    show ∃ Γ', stmt (program f) (some tError) (block ([_] ++ _)) ⟨[(go!"x", Ty.ptr (.name (camel t.1))), (go!"b", tBytes)], [go!"x", go!"b"]⟩ = some Γ'
    rw [hcheck]
    cases lib with
    | v1 =>
      open LibV1 in
      have hdef : stmt (program f) (some tError) (.define go!"d" (.call1 (polyglot go!"GetDecoder") vb)) ⟨[(go!"x", Ty.ptr (.name (camel t.1))), (go!"b", tBytes)], [go!"x", go!"b"]⟩ =
          some ⟨[(go!"d", tDecoder), (go!"x", Ty.ptr (.name (camel t.1))), (go!"b", tBytes)], [go!"d", go!"x", go!"b"]⟩ := by
        have hdec : expr (program f) [(go!"x", Ty.ptr (.name (camel t.1))), (go!"b", tBytes)] (.call1 (polyglot go!"GetDecoder") vb) = some (.vals [tDecoder]) := hdec
        have h2 : go!"d" ≠ go!"_" := by decide +kernel
        have h3 : [go!"x", go!"b"].contains go!"d" = false := by decide +kernel
        simp only [stmt, hdec, defined, if_neg h2, Env.declare, h3]
        rfl
      open LibV1 in
      have hd : List.lookup go!"d" [(go!"d", tDecoder), (go!"x", Ty.ptr (.name (camel t.1))), (go!"b", tBytes)] = some tDecoder := lookup_cons_self ..
      open LibV1 in
      have hx' : List.lookup go!"x" [(go!"d", tDecoder), (go!"x", Ty.ptr (.name (camel t.1))), (go!"b", tBytes)] = some (.ptr (.name (camel t.1))) :=
        (lookup_cons_ne (by decide +kernel) ..).trans hx
      open LibV1 in
      have hdf : stmt (program f) (some tError) (.defer (.call0 (.sel vd go!"Return"))) ⟨[(go!"d", tDecoder), (go!"x", Ty.ptr (.name (camel t.1))), (go!"b", tBytes)], [go!"d", go!"x", go!"b"]⟩ =
          some ⟨[(go!"d", tDecoder), (go!"x", Ty.ptr (.name (camel t.1))), (go!"b", tBytes)], [go!"d", go!"x", go!"b"]⟩ := by
        have hc := callee_decoder (P := program f) hd (m := go!"Return") (s := ⟨[], []⟩) (by decide +kernel)
        have he := expr_call0 hc rfl
        simp only [stmt, isCall, hc, he, Option.isSome_some, Bool.and_self, if_true]
      open LibV1 in
      have hret : stmt (program f) (some tError) (.ret1 (.call1 (.sel vx go!"decode") vd)) ⟨[(go!"d", tDecoder), (go!"x", Ty.ptr (.name (camel t.1))), (go!"b", tBytes)], [go!"d", go!"x", go!"b"]⟩ =
          some ⟨[(go!"d", tDecoder), (go!"x", Ty.ptr (.name (camel t.1))), (go!"b", tBytes)], [go!"d", go!"x", go!"b"]⟩ :=
        stmt_ret1 (u := .vals [tError]) (expr_decode h ht (x_ne hx' _) (expr_var hx') (expr_var hd)) (assignable_self _)
      refine ⟨⟨[(go!"d", @tDecoder .v1), (go!"x", Ty.ptr (.name (camel t.1))), (go!"b", tBytes)], [go!"d", go!"x", go!"b"]⟩, ?_⟩
      show @stmt .v1 _ _ (block [_, _, _]) _ = _
      rw [@stmt_block_cons .v1, hdef]
      have hu : ([go!"d"].all fun x => usedIn x (block [.defer (.call0 (.sel vd go!"Return")), .ret1 (.call1 (.sel vx go!"decode") vd)])) = true := by decide +kernel
      simp only [simple, newNames, hu, Bool.and_self, if_true]
      open LibV1 in
      exact Keeps.done (.append (a := [_]) (b := [_]) (.one hdf rfl rfl) (.one hret rfl rfl))
    | v2 =>
      open LibV2 in
      exact ⟨_, Keeps.done (.one (stmt_ret1 (u := .vals [tError]) (expr_decode h ht (x_ne hx _) (expr_var hx) hdec) (assignable_self _)) rfl rfl)⟩

theorem new_ne (n : Ident) : go!"New" ++ n ≠ go!"init" ∧ go!"New" ++ n ≠ go!"main" :=
  ⟨upper_ne (upper_new n) ⟨_, _, rfl, by decide⟩, upper_ne (upper_new n) ⟨_, _, rfl, by decide⟩⟩

/-- The elements of a new struct. -/
theorem elementsOk_new (h : f.Plain) {t : Bytes × List FieldD} (ht : t ∈ f.types) :
    elementsOk (program f) [] (some (t.2.map fun g => (camel g.name, fieldTy t.1 g))) (newElements t.2) = true := by
  have hsub : ∀ e ∈ newElements t.2, ∃ g ∈ t.2, g.kind = .message ∧ (∃ r, g.shape = .one r) ∧ e = (camel g.name, go!"New" ++ camel g.type) := by
    intro e he
    cases lib with
    | v1 =>
      simp only [newElements, Lib.pick, List.mem_map, List.mem_filter, decide_eq_true_eq] at he
      obtain ⟨g, ⟨hg, hk, hr⟩, rfl⟩ := he
      obtain ⟨r, hs⟩ : ∃ r, g.shape = .one r := by cases hsh : g.shape <;> simp [FieldD.IsRepeated, hsh] at hr ⊢
      exact ⟨g, hg, by simpa [FieldD.Kind, hs] using hk, ⟨r, hs⟩, rfl⟩
    | v2 => cases he
  have hnd : ((newElements t.2).map (·.1)).Nodup := by
    cases lib with
    | v1 =>
      simp only [newElements, Lib.pick, List.map_map]
      open LibV1 in exact ((List.filter_sublist (l := t.2)).map (fun g => camel g.name)).nodup (h.fields t ht)
    | v2 => exact List.nodup_nil
  simp only [elementsOk, hnd, decide_true, Bool.true_and, List.all_eq_true]
  intro e he
  obtain ⟨g, hg, hk, ⟨r, hs⟩, rfl⟩ := hsub e he
  obtain ⟨i, hi⟩ := List.getElem?_of_mem hg
  have hfi := GoRun.fieldIndex_eq (name := fun g : FieldD => camel g.name) (ty := fieldTy t.1) (h.fields t ht) hi
  obtain ⟨t', ht', he'⟩ := message_type h ht hg hk
  have hfn := find_new h ht'
  rw [he'] at hfn
  have hfty : fieldTy t.1 g = .ptr (.name (camel g.type)) := by simp only [fieldTy, hs, hk, elemTy]
  simp only [hfi, hfn, hfty]
  simp [result, Func.sig, newFunc, Decl.fn, argsOk, assignable]

theorem decl_new (h : f.Plain) {t : Bytes × List FieldD} (ht : t ∈ f.types) : decl (program f) (newFunc (camel t.1) (newElements t.2)) = true := by
  have hty := typeOk_struct (lib := lib) (Γ := []) (find_struct h ht) rfl
  refine decl_func (new_ne _).1 (new_ne _).2 List.nodup_nil (by intro q hq; cases hq) ?_ ?_ (.inr rfl)
  · intro u hu
    rw [Option.toList_some, List.mem_singleton] at hu
    subst hu
    exact hty
  · refine ⟨_, stmt_ret1_block (u := .vals [.ptr (.name (camel t.1))]) ?_ (assignable_self _)⟩
    show expr (program f) [] _ = _
    simp only [expr, hty, find_struct h ht, elementsOk_new h ht, and_self, if_true]

theorem decl_error (h : f.Plain) {t : Bytes × List FieldD} (ht : t ∈ f.types) : decl (program f) (errorFunc (camel t.1)) = true := by
  have hP := good_program (lib := lib) h.wf
  refine decl_method (receiver_ptr h ht) ?_ ?_ (by simp) ?_ (.inl rfl)
  · show [go!"x", go!"b", go!"err"].Nodup
    decide +kernel
  · intro q hq
    simp only [List.mem_cons, List.not_mem_nil, or_false] at hq
    rcases hq with rfl | rfl | rfl
    · exact typeOk_struct (lib := lib) (find_struct h ht) rfl
    · exact typeOk_lib hP (by cases lib <;> decide +kernel)
    · exact typeOk_basic (lib := lib) Open.nil (by decide +kernel)
  · have ho : Open [(go!"x", Ty.ptr (.name (camel t.1))), (go!"b", tBuffer), (go!"err", tError)] :=
      ((Open.nil.cons (by decide +kernel) _).cons (by decide +kernel) _).cons (by decide +kernel) _
    have hb : List.lookup go!"b" [(go!"x", Ty.ptr (.name (camel t.1))), (go!"b", tBuffer), (go!"err", tError)] = some tBuffer :=
      (lookup_cons_ne (by decide +kernel) ..).trans (lookup_cons_self ..)
    have he : List.lookup go!"err" [(go!"x", Ty.ptr (.name (camel t.1))), (go!"b", tBuffer), (go!"err", tError)] = some tError :=
      (lookup_cons_ne (by decide +kernel) ..).trans ((lookup_cons_ne (by decide +kernel) ..).trans (lookup_cons_self ..))
    have henc := isEncoder_encoder hP ho hb
    have hst : stmt (program f) none (.expr (.call1 (.sel encoder go!"Error") verr)) ⟨[(go!"x", Ty.ptr (.name (camel t.1))), (go!"b", tBuffer), (go!"err", tError)],
        [go!"x", go!"b", go!"err"]⟩ = some _ :=
      stmt_expr1 (callee_encoder henc.var henc.ty (m := go!"Error") (s := ⟨[tError], [tEncoder]⟩) (by decide +kernel)) (expr_var he) (args_one _)
    exact ⟨_, (Keeps.one hst rfl rfl).done⟩

end

end GoCheck
