import Verif.Text.GoCheckDecl

/-!
# The generated declarations compile: maps, enums, structs
-/

namespace GoCheck

open Utils Text GoAst GoText
open Gen (PKind Field)
open Package (EnumD qualify)
open GoRun (findStruct findType findFunc findMethod findErr base Func structOf fieldIndex kinds tBool tUint32 tInt tError tBytes tBuffer tEncoder tDecoder tKind
  lookup_cons_ne lookup_cons_self)

variable {lib : Lib}

section
variable {f : FileD}

theorem stmt_var {P : List Decl} {ret : Option Ty} {n : Ident} {t : Ty} {Γ : Env} {rest : List Stmt} (ht : typeOk P Γ.vars t = true) (hn : n ≠ go!"_") (hb : n ∉ Γ.block)
    (hu : uses n (block rest) = true) : stmt P ret (block (.var n t :: rest)) Γ = stmt P ret (block rest) ⟨(n, t) :: Γ.vars, n :: Γ.block⟩ := by
  rw [stmt_block_cons]
  have h1 : Γ.block.contains n = false := by simpa using hb
  have h2 : stmt P ret (.var n t) Γ = some ⟨(n, t) :: Γ.vars, n :: Γ.block⟩ := by
    show (if typeOk P Γ.vars t then Γ.declare n t else none) = _
    rw [ht, Env.declare, if_neg hn, h1]
    rfl
  rw [h2]
  simp [simple, newNames, usedIn, hu]

/-- The scope of the loop that reads a map. -/
structure MapScope [Lib] (f : FileD) (Γ : Vars) (t kt vt : Ty) : Prop where
  s : DecScope f Γ t
  k : Γ.lookup go!"k" = some kt
  v : Γ.lookup go!"v" = some vt
  size : Γ.lookup go!"size" = some tUint32

theorem MapScope.cons {Γ : Vars} {t kt vt : Ty} (h : MapScope f Γ t kt vt) {n : Ident} (hk : n ∉ keep) (hn : n ∉ [go!"x", go!"d", go!"err", go!"k", go!"v", go!"size"])
    (u : Ty) : MapScope f ((n, u) :: Γ) t kt vt := by
  simp only [List.mem_cons, List.not_mem_nil, or_false, not_or] at hn
  obtain ⟨h1, h2, h3, h4, h5, h6⟩ := hn
  refine ⟨h.s.cons hk (Ne.symm h1) (Ne.symm h2) (Ne.symm h3) u, ?_, ?_, ?_⟩
  · rw [lookup_cons_ne (Ne.symm h4)]; exact h.k
  · rw [lookup_cons_ne (Ne.symm h5)]; exact h.v
  · rw [lookup_cons_ne (Ne.symm h6)]; exact h.size

theorem keeps_decEntry (h : f.Plain) {Γ : Env} {t : Ty} (hs : DecScope f Γ.vars t) {n tmp : Ident} {k : PKind} {type : Bytes}
    (hn : Γ.vars.lookup n = some (elemTy k (camel type))) (hk : k ≠ .group) (hb : k ≠ .bytes)
    (hm : k = .message → ∃ t' ∈ f.types, t'.1 = type ∧ Γ.vars.lookup (go!"New" ++ camel type) = none)
    (he : k = .enum → type ∈ f.enumNames ∧ Γ.vars.lookup (camel type) = none ∧ Γ.vars.lookup tmp = some tUint32) :
    Keeps (program f) (some tError) (decEntry n k (camel type) tmp ++ [check]) Γ := by
  refine .append ?_ (hs.check h)
  by_cases h1 : k = .message
  · subst h1
    obtain ⟨t', ht', rfl, hl⟩ := hm rfl
    show Keeps (program f) (some tError) ([_] ++ [_]) Γ
    refine .append (.one ?_ rfl rfl) (.one ?_ rfl rfl)
    · exact stmt_assign (t := .ptr (.name (camel t'.1))) hn (expr_new h ht' hl) (assignable_self _)
    · exact stmt_assign (t := tError) hs.err (expr_decode h ht' (x_ne hn _) (expr_var hn) (expr_var hs.d)) (assignable_self _)
  · by_cases h2 : k = .enum
    · subst h2
      obtain ⟨he1, he2, he3⟩ := he rfl
      show Keeps (program f) (some tError) ([_] ++ [_]) Γ
      refine .append (.one ?_ rfl rfl) (.one ?_ rfl rfl)
      · exact stmt_assign2 he3 hs.err (expr_readEnum hs.d)
      · exact stmt_assign (t := .name (camel type)) hn (expr_conv h he1 he2 (expr_var he3)) (assignable_self _)
    · rw [elemTy_scalar h1 h2] at hn
      have hst : stmt (program f) (some tError) (.assign2 (.var n) verr (.call0 (.sel vd (method k)))) Γ = some Γ :=
        stmt_assign2 hn hs.err (expr_read hs.d h1 hk h2 hb)
      have := Keeps.one hst rfl rfl
      cases k <;> first | contradiction | exact this

theorem names_entry (n : Ident) (k : PKind) (t tmp : Ident) : ∀ s ∈ decEntry n k t tmp, newNames s = [] := by
  intro s hs
  cases k <;> simp only [decEntry, List.mem_cons, List.not_mem_nil, or_false] at hs <;>
    first | (subst hs; rfl) | (rcases hs with rfl | rfl <;> rfl)

/-- The body of the loop. -/
def mapBody (kk k : PKind) (t : Ident) : List Stmt :=
  decEntry go!"k" kk [] [] ++ [check] ++ decEntry go!"v" k t go!"ValueTemp" ++ [check, .assign (.index vx vk) vv]

theorem names_mapBody (kk k : PKind) (t : Ident) : ∀ s ∈ mapBody kk k t, newNames s = [] := by
  intro s hs
  rcases List.mem_append.mp hs with hs | hs
  · rcases List.mem_append.mp hs with hs | hs
    · rcases List.mem_append.mp hs with hs | hs
      · exact names_entry _ _ _ _ s hs
      · rw [List.mem_singleton] at hs; subst hs; rfl
    · exact names_entry _ _ _ _ s hs
  · simp only [List.mem_cons, List.not_mem_nil, or_false] at hs
    rcases hs with rfl | rfl <;> rfl

theorem uses_mapBody {n : Ident} {kk k : PKind} {t : Ident} (h : ∃ s ∈ mapBody kk k t, uses n s = true) : uses n (block (mapBody kk k t)) = true :=
  uses_block h fun s hs => by rw [names_mapBody _ _ _ s hs]; exact List.not_mem_nil

/-- The loop. -/
def mapLoop (kk k : PKind) (t : Ident) : Stmt := .for3 go!"i" (uint32 (.num go!"0")) (.lt vi (.var go!"size")) (block (mapBody kk k t))

theorem uses_loop {n : Ident} (hn : n ≠ go!"i") {kk k : PKind} {t : Ident} (h : ∃ s ∈ mapBody kk k t, uses n s = true) : uses n (mapLoop kk k t) = true := by
  unfold mapLoop
  rw [uses, uses_mapBody h]
  simp [Ne.symm hn]

theorem keeps_mapLoop (h : f.Plain) {t : Bytes × List FieldD} (ht : t ∈ f.types) {g : FieldD} (hg : g ∈ t.2) {kk : PKind} (hs : g.shape = .map kk) {Γ : Env}
    (hm : MapScope f Γ.vars (.name (mapName t.1 g)) (scalarTy kk) (elemTy g.kind (camel g.type)))
    (hnew : g.kind = .message → Γ.vars.lookup (go!"New" ++ camel g.type) = none)
    (hen : g.kind = .enum → Γ.vars.lookup (camel g.type) = none ∧ Γ.vars.lookup go!"ValueTemp" = some tUint32) :
    Keeps (program f) (some tError) [mapLoop kk g.kind (camel g.type)] Γ := by
  have hP := good_program (lib := lib) h.wf
  have hw := (h.wf.typeWf ht).fields g hg
  obtain ⟨k1, k2, k3, k4⟩ := key_scalar (hw.key kk hs)
  have hsup := GoRun.supported_field h ht hg
  simp only [FieldD.toField, hs, Field.GoSupported] at hsup
  have hint : (integer (program f) tUint32).isSome = true := by rw [integer_uint32 hP]; rfl
  have hu : underlying (program f) (.name (mapName t.1 g)) = .map (scalarTy kk) (elemTy g.kind (camel g.type)) := by
    rw [underlying, find_mapType h ht hg hs]; rfl
  have hd : Γ.inner.declare go!"i" tUint32 = some ⟨(go!"i", tUint32) :: Γ.vars, [go!"i"]⟩ := by
    have : go!"i" ≠ go!"_" := by decide +kernel
    simp [Env.declare, Env.inner, this]
  have hm' : MapScope f ((go!"i", tUint32) :: Γ.vars) (.name (mapName t.1 g)) (scalarTy kk) (elemTy g.kind (camel g.type)) :=
    hm.cons (by decide +kernel) (by decide +kernel) _
  refine .one (stmt_for3 (Γ2 := _) (expr_zero hP hm.s.o) hint hd ?_ (by decide +kernel) (Keeps.done ?_)) rfl rfl
  · have h1 : expr (program f) ((go!"i", tUint32) :: Γ.vars) vi = some (.vals [tUint32]) := expr_var (lookup_cons_self ..)
    have h2 : expr (program f) ((go!"i", tUint32) :: Γ.vars) (.var go!"size") = some (.vals [tUint32]) := expr_var hm'.size
    have h3 : expr (program f) ((go!"i", tUint32) :: Γ.vars) (.lt vi (.var go!"size")) =
        ordering (program f) (expr (program f) ((go!"i", tUint32) :: Γ.vars) vi) (expr (program f) ((go!"i", tUint32) :: Γ.vars) (.var go!"size")) := by
      conv => lhs; unfold expr
    show isBool (program f) (expr (program f) ((go!"i", tUint32) :: Γ.vars) (.lt vi (.var go!"size"))) = true
    rw [h3, h1, h2]
    simp only [ordering, hint, and_self, if_true]
    exact bool_ok hP
  · have hnew' : g.kind = .message → List.lookup (go!"New" ++ camel g.type) ((go!"i", tUint32) :: Γ.vars) = none := by
      intro e
      rw [lookup_cons_ne (upper_ne (upper_new _) ⟨_, _, rfl, by decide⟩)]
      exact hnew e
    have hen' : g.kind = .enum → List.lookup (camel g.type) ((go!"i", tUint32) :: Γ.vars) = none ∧
        List.lookup go!"ValueTemp" ((go!"i", tUint32) :: Γ.vars) = some tUint32 := by
      intro e
      have hup : Upper (camel g.type) := declared_upper (lib := lib) h.wf _ (declared_enum_name (lib := lib) ((h.closed t ht g hg).2 e))
      rw [lookup_cons_ne (upper_ne hup ⟨_, _, rfl, by decide⟩), lookup_cons_ne (by decide +kernel)]
      exact hen e
    generalize hΓ2 : (Env.inner _ : Env) = Γ2
    have hvars : (go!"i", tUint32) :: Γ.vars = Γ2.vars := by rw [← hΓ2]; rfl
    rw [hvars] at hm' hnew' hen'
    clear hΓ2 hvars hd
    have hbody : mapBody kk g.kind (camel g.type) = (decEntry go!"k" kk (camel []) [] ++ [check]) ++ ((decEntry go!"v" g.kind (camel g.type) go!"ValueTemp" ++ [check]) ++
        [.assign (.index vx vk) vv]) := by
      simp only [mapBody, List.append_assoc]
      rfl
    rw [hbody]
    refine .append (keeps_decEntry h hm'.s ?_ k2 k4 (fun e => absurd e k1) (fun e => absurd e k3)) (.append (keeps_decEntry h hm'.s hm'.v hsup.2.2.2.1 hsup.2.2.2.2 ?_ ?_)
      (.one ?_ rfl rfl))
    · rw [elemTy_scalar k1 k3]; exact hm'.k
    · intro e
      obtain ⟨t', ht', he'⟩ := message_type h ht hg e
      exact ⟨t', ht', he', hnew' e⟩
    · intro e
      exact ⟨(h.closed t ht g hg).2 e, hen' e⟩
    · refine stmt_assign (t := elemTy g.kind (camel g.type)) ?_ (expr_var hm'.v) (assignable_self _)
      have h1 : expr (program f) Γ2.vars vx = some (.vals [.name (mapName t.1 g)]) := expr_var hm'.s.x
      have h2 : expr (program f) Γ2.vars vk = some (.vals [scalarTy kk]) := expr_var hm'.k
      have h3 : indexOf (program f) (some (.vals [.name (mapName t.1 g)])) (some (.vals [scalarTy kk])) = some (.vals [elemTy g.kind (camel g.type)]) := by
        simp [indexOf, hu, assignable_self]
      rw [left, h1, h2, h3]

theorem decl_mapDecode (h : f.Plain) (hun : f.Unhidden) {t : Bytes × List FieldD} (ht : t ∈ f.types) {g : FieldD} (hg : g ∈ t.2) {kk : PKind} (hs : g.shape = .map kk) :
    decl (program f) (decodeMapFunc (mapName t.1 g) kk g.kind (camel g.type)) = true := by
  have hP := good_program (lib := lib) h.wf
  have hw := (h.wf.typeWf ht).fields g hg
  obtain ⟨k1, k2, k3, k4⟩ := key_scalar (hw.key kk hs)
  have hsup := GoRun.supported_field h ht hg
  simp only [FieldD.toField, hs, Field.GoSupported] at hsup
  have hlow : ∀ n : Ident, Lower n → n ∉ declared (program f) := fun n hn => not_declared h.wf hn
  have hbody : decodeMapFunc (mapName t.1 g) kk g.kind (camel g.type) = .func (some (go!"x", .name (mapName t.1 g))) go!"decode" [(go!"d", tDecoder), (go!"size", tUint32)] (some tError)
      (block ((([.if1 (.eq (.var go!"size") (.num go!"0")) (block [.ret1 vnil])] ++ ([.var go!"k" (scalarTy kk)] ++ ([.var go!"v" (elemTy g.kind (camel g.type))] ++
        ((if g.kind = .enum then [.var go!"ValueTemp" tUint32] else []) ++ ([.var go!"err" tError] ++ [mapLoop kk g.kind (camel g.type)])))))) ++ [.ret1 vnil])) := by
    simp only [List.append_assoc]
    rfl
  rw [hbody]
  refine decl_method (receiver_map h ht hg hs) ?_ ?_ ?_ ?_ (.inr (terminates_last ..))
  · show [go!"x", go!"d", go!"size"].Nodup
    decide +kernel
  · intro q hq
    simp only [List.mem_cons, List.not_mem_nil, or_false] at hq
    rcases hq with rfl | rfl | rfl
    · exact typeOk_type (find_mapType h ht hg hs) rfl
    · exact typeOk_lib hP (by cases lib <;> decide +kernel)
    · exact typeOk_basic (lib := lib) Open.nil (by decide +kernel)
  · intro u hu
    rw [Option.toList_some, List.mem_singleton] at hu
    subst hu
    exact typeOk_basic (lib := lib) Open.nil (by decide +kernel)
  · simp only [List.append_assoc]
    show ∃ Γ', stmt (program f) (some tError) _ ⟨[(go!"x", .name (mapName t.1 g)), (go!"d", tDecoder), (go!"size", tUint32)], [go!"x", go!"d", go!"size"]⟩ = some Γ'
    have ho : Open [(go!"x", .name (mapName t.1 g)), (go!"d", tDecoder), (go!"size", tUint32)] :=
      ((Open.nil.cons (by decide +kernel) _).cons (by decide +kernel) _).cons (by decide +kernel) _
    have hsz : List.lookup go!"size" [(go!"x", .name (mapName t.1 g)), (go!"d", tDecoder), (go!"size", tUint32)] = some tUint32 :=
      (lookup_cons_ne (by decide +kernel) ..).trans ((lookup_cons_ne (by decide +kernel) ..).trans (lookup_cons_self ..))
    have hx : List.lookup go!"x" [(go!"x", .name (mapName t.1 g)), (go!"d", tDecoder), (go!"size", tUint32)] = some (.name (mapName t.1 g)) := lookup_cons_self ..
    have hd : List.lookup go!"d" [(go!"x", .name (mapName t.1 g)), (go!"d", tDecoder), (go!"size", tUint32)] = some tDecoder :=
      (lookup_cons_ne (by decide +kernel) ..).trans (lookup_cons_self ..)
    have hunh : Unhid f [(go!"x", .name (mapName t.1 g)), (go!"d", tDecoder), (go!"size", tUint32)] := by
      refine Unhid.cons (Unhid.cons (Unhid.cons (fun _ _ => rfl) (hlow _ ?_) _) (hlow _ ?_) _) (hlow _ ?_) _ <;> exact ⟨_, _, rfl, by decide⟩
    generalize hΓ : (⟨[(go!"x", .name (mapName t.1 g)), (go!"d", tDecoder), (go!"size", tUint32)], [go!"x", go!"d", go!"size"]⟩ : Env) = Γ
    have hvars : [(go!"x", .name (mapName t.1 g)), (go!"d", tDecoder), (go!"size", tUint32)] = Γ.vars := by rw [← hΓ]
    have hblock : Γ.block = [go!"x", go!"d", go!"size"] := by rw [← hΓ]
    rw [hvars] at ho hsz hx hd hunh
    clear hvars hΓ hbody
    have hif : Keeps (program f) (some tError) [.if1 (.eq (.var go!"size") (.num go!"0")) (block [.ret1 vnil])] Γ := by
      refine .one (stmt_if1 (Γ' := Γ.inner) ?_ (Keeps.one (stmt_retNil (Γ := Γ.inner) hP ho) rfl rfl).done) rfl rfl
      have h0 : decimalValue go!"0" = some 0 := by decide +kernel
      have ha : assignable (program f) tUint32 (.int 0) = true := by simp [assignable, integer_uint32 hP]
      simp only [expr, hsz, h0, Option.map_some, comparison, ha, if_true]
      exact bool_ok hP
    rw [hif]
    have hassign : .assign (.index vx vk) vv ∈ mapBody kk g.kind (camel g.type) := List.mem_append_right _ (List.mem_cons_of_mem _ (List.mem_singleton_self _))
    have hlu : ∀ {n : Ident}, n ≠ go!"i" → (∃ s ∈ mapBody kk g.kind (camel g.type), uses n s = true) → ∀ (pre : List Stmt), (∀ s ∈ pre, n ∉ newNames s) →
        uses n (block (pre ++ ([mapLoop kk g.kind (camel g.type)] ++ [.ret1 vnil]))) = true := by
      intro n hn hu pre hpre
      refine uses_block ⟨mapLoop kk g.kind (camel g.type), by simp, uses_loop hn hu⟩ ?_
      intro s hs
      rcases List.mem_append.mp hs with hs | hs
      · exact hpre s hs
      · simp only [List.singleton_append, List.mem_cons, List.not_mem_nil, or_false] at hs
        rcases hs with rfl | rfl
        · exact List.not_mem_nil
        · exact List.not_mem_nil
    have huk := hlu (n := go!"k") (by decide +kernel) ⟨_, hassign, by decide +kernel⟩
    have huv := hlu (n := go!"v") (by decide +kernel) ⟨_, hassign, by decide +kernel⟩
    have hue := hlu (n := go!"err") (by decide +kernel) ⟨check, List.mem_append_right _ (List.mem_cons_self ..), uses_check⟩ [] (by intro s hs; cases hs)
    rw [List.nil_append] at hue
    have hkty : typeOk (program f) Γ.vars (scalarTy kk) = true := by
      have := typeOk_elem (type := []) h ho k2 (fun e => absurd e k1) (fun e => absurd e k3)
      rwa [elemTy_scalar k1 k3] at this
    rw [List.singleton_append, stmt_var hkty (by decide +kernel) (by rw [hblock]; decide +kernel)
      (by
        have := huk ([.var go!"v" (elemTy g.kind (camel g.type))] ++ (if g.kind = .enum then [.var go!"ValueTemp" tUint32] else []) ++ [.var go!"err" tError]) (by
          intro s hs
          rcases List.mem_append.mp hs with hs | hs
          · rcases List.mem_append.mp hs with hs | hs
            · rw [List.mem_singleton] at hs; subst hs; show go!"k" ∉ [go!"v"]; decide +kernel
            · split at hs
              · rw [List.mem_singleton] at hs; subst hs; show go!"k" ∉ [go!"ValueTemp"]; decide +kernel
              · cases hs
          · rw [List.mem_singleton] at hs; subst hs; show go!"k" ∉ [go!"err"]; decide +kernel)
        simpa only [List.append_assoc] using this)]
    have ho1 : Open ((go!"k", scalarTy kk) :: Γ.vars) := ho.cons (by decide +kernel) _
    have hunh1 : Unhid f ((go!"k", scalarTy kk) :: Γ.vars) := hunh.cons (hlow _ ⟨_, _, rfl, by decide⟩) _
    have hvty : typeOk (program f) ((go!"k", scalarTy kk) :: Γ.vars) (elemTy g.kind (camel g.type)) = true := by
      refine typeOk_elem h ho1 hsup.2.2.2.1 (fun e => ?_) (fun e => ?_)
      · obtain ⟨t', ht', he'⟩ := message_type h ht hg e
        exact ⟨t', ht', he', hunh1 _ (he' ▸ mem_declared_type h ht')⟩
      · exact ⟨(h.closed t ht g hg).2 e, hunh1 _ (declared_enum_name ((h.closed t ht g hg).2 e))⟩
    rw [List.singleton_append, stmt_var hvty (by decide +kernel) (by show go!"v" ∉ go!"k" :: Γ.block; rw [hblock]; decide +kernel)
      (by
        have := huv ((if g.kind = .enum then [.var go!"ValueTemp" tUint32] else []) ++ [.var go!"err" tError]) (by
          intro s hs
          rcases List.mem_append.mp hs with hs | hs
          · split at hs
            · rw [List.mem_singleton] at hs; subst hs; show go!"v" ∉ [go!"ValueTemp"]; decide +kernel
            · cases hs
          · rw [List.mem_singleton] at hs; subst hs; show go!"v" ∉ [go!"err"]; decide +kernel)
        simpa only [List.append_assoc] using this)]
    have ho2 : Open ((go!"v", elemTy g.kind (camel g.type)) :: (go!"k", scalarTy kk) :: Γ.vars) := ho1.cons (by decide +kernel) _
    have hunh2 : Unhid f ((go!"v", elemTy g.kind (camel g.type)) :: (go!"k", scalarTy kk) :: Γ.vars) := hunh1.cons (hlow _ ⟨_, _, rfl, by decide⟩) _
    -- the scope with `err` on top of some variables
    have hscope : ∀ {Δ : Vars}, Open Δ → Δ.lookup go!"x" = some (.name (mapName t.1 g)) → Δ.lookup go!"d" = some tDecoder → Δ.lookup go!"size" = some tUint32 →
        Δ.lookup go!"k" = some (scalarTy kk) → Δ.lookup go!"v" = some (elemTy g.kind (camel g.type)) →
        MapScope f ((go!"err", tError) :: Δ) (.name (mapName t.1 g)) (scalarTy kk) (elemTy g.kind (camel g.type)) := by
      intro Δ a1 a2 a3 a4 a5 a6
      refine ⟨⟨a1.cons (by decide +kernel) _, ?_, ?_, lookup_cons_self ..⟩, ?_, ?_, ?_⟩ <;> rw [lookup_cons_ne (by decide +kernel)] <;> assumption
    have hlx2 : List.lookup go!"x" ((go!"v", elemTy g.kind (camel g.type)) :: (go!"k", scalarTy kk) :: Γ.vars) = some (.name (mapName t.1 g)) := by
      rw [lookup_cons_ne (by decide +kernel), lookup_cons_ne (by decide +kernel)]; exact hx
    have hld2 : List.lookup go!"d" ((go!"v", elemTy g.kind (camel g.type)) :: (go!"k", scalarTy kk) :: Γ.vars) = some tDecoder := by
      rw [lookup_cons_ne (by decide +kernel), lookup_cons_ne (by decide +kernel)]; exact hd
    have hls2 : List.lookup go!"size" ((go!"v", elemTy g.kind (camel g.type)) :: (go!"k", scalarTy kk) :: Γ.vars) = some tUint32 := by
      rw [lookup_cons_ne (by decide +kernel), lookup_cons_ne (by decide +kernel)]; exact hsz
    have hlk2 : List.lookup go!"k" ((go!"v", elemTy g.kind (camel g.type)) :: (go!"k", scalarTy kk) :: Γ.vars) = some (scalarTy kk) := by
      rw [lookup_cons_ne (by decide +kernel), lookup_cons_self]
    have hlv2 : List.lookup go!"v" ((go!"v", elemTy g.kind (camel g.type)) :: (go!"k", scalarTy kk) :: Γ.vars) = some (elemTy g.kind (camel g.type)) := lookup_cons_self ..
    generalize hΓ2 : (⟨(go!"v", elemTy g.kind (camel g.type)) :: (go!"k", scalarTy kk) :: Γ.vars, go!"v" :: go!"k" :: Γ.block⟩ : Env) = Γ2
    have hvars2 : (go!"v", elemTy g.kind (camel g.type)) :: (go!"k", scalarTy kk) :: Γ.vars = Γ2.vars := by rw [← hΓ2]
    have hblock2 : Γ2.block = [go!"v", go!"k", go!"x", go!"d", go!"size"] := by rw [← hΓ2, ← hblock]
    rw [hvars2] at ho2 hunh2 hlx2 hld2 hls2 hlk2 hlv2
    by_cases hen : g.kind = .enum
    · have hty1 : typeOk (program f) Γ2.vars tUint32 = true := typeOk_basic ho2 (by decide +kernel)
      rw [if_pos hen, List.singleton_append, stmt_var hty1 (by decide +kernel) (by rw [hblock2]; decide +kernel)
        (by
          have hmem : .assign (.var go!"v") (.call1 (.var (camel g.type)) (.var go!"ValueTemp")) ∈ mapBody kk g.kind (camel g.type) := by
            rw [hen]
            exact List.mem_append_left _ (List.mem_append_right _ (List.mem_cons_of_mem _ (List.mem_singleton_self _)))
          have := hlu (n := go!"ValueTemp") (by decide +kernel) ⟨_, hmem, by simp [uses, mentions, mentionsLeft]⟩ [.var go!"err" tError] (by
            intro s hs
            rw [List.mem_singleton] at hs; subst hs; show go!"ValueTemp" ∉ [go!"err"]; decide +kernel)
          simpa only [List.append_assoc] using this)]
      have ho3 := ho2.cons (n := go!"ValueTemp") (by decide +kernel) tUint32
      have hty2 : typeOk (program f) ((go!"ValueTemp", tUint32) :: Γ2.vars) tError = true := typeOk_basic ho3 (by decide +kernel)
      rw [List.singleton_append, stmt_var hty2 (by decide +kernel) (by show go!"err" ∉ go!"ValueTemp" :: Γ2.block; rw [hblock2]; decide +kernel)
        hue]
      have hn' := (h.closed t ht g hg).2 hen
      have hvt : camel g.type ≠ go!"ValueTemp" := hun.valueTemp t ht g hg hen kk hs
      have hm := hscope ho3 ((lookup_cons_ne (by decide +kernel) ..).trans hlx2) ((lookup_cons_ne (by decide +kernel) ..).trans hld2)
        ((lookup_cons_ne (by decide +kernel) ..).trans hls2) ((lookup_cons_ne (by decide +kernel) ..).trans hlk2) ((lookup_cons_ne (by decide +kernel) ..).trans hlv2)
      refine ⟨_, Keeps.done (Keeps.append (a := [_]) (b := [_]) (keeps_mapLoop h ht hg hs hm (fun e => by rw [hen] at e; cases e) fun _ => ⟨?_, ?_⟩) (.one (stmt_retNil hP hm.s.o) rfl rfl))⟩
      · rw [lookup_cons_ne (upper_ne (declared_upper (lib := lib) h.wf _ (declared_enum_name (lib := lib) hn')) ⟨_, _, rfl, by decide⟩), lookup_cons_ne hvt]
        exact hunh2 _ (declared_enum_name (lib := lib) hn')
      · rw [lookup_cons_ne (by decide +kernel)]; exact lookup_cons_self ..
    · have hty2 : typeOk (program f) Γ2.vars tError = true := typeOk_basic ho2 (by decide +kernel)
      rw [if_neg hen, List.nil_append, List.singleton_append, stmt_var hty2 (by decide +kernel) (by rw [hblock2]; decide +kernel)
        hue]
      have hm := hscope ho2 hlx2 hld2 hls2 hlk2 hlv2
      refine ⟨_, Keeps.done (Keeps.append (a := [_]) (b := [_]) (keeps_mapLoop h ht hg hs hm (fun e => ?_) fun e => absurd e hen) (.one (stmt_retNil hP hm.s.o) rfl rfl))⟩
      obtain ⟨t', ht', he'⟩ := message_type h ht hg e
      rw [lookup_cons_ne (upper_ne (upper_new _) ⟨_, _, rfl, by decide⟩)]
      exact hunh2 _ (he' ▸ declared_new h ht')

/-! ## Map types -/

theorem key_comparable {P : List Decl} (hP : Good P) {k : PKind} (h : IsKey k) : comparable P (scalarTy k) = true := by
  have : ∀ n ∈ basicTypes, comparable P (.name n) = true := by
    intro n hn
    rw [comparable, underlying_basic hP (basic_keep n hn)]
    simpa using hn
  cases k <;> first | exact this _ (by decide +kernel) | (simp [IsKey] at h)

theorem typeOk_map (h : f.Plain) {t : Bytes × List FieldD} (ht : t ∈ f.types) {g : FieldD} (hg : g ∈ t.2) {kk : PKind} (hs : g.shape = .map kk) {Γ : Vars} (ho : Open Γ)
    (hun : Unhid f Γ) : typeOk (program f) Γ (.map (scalarTy kk) (elemTy g.kind (camel g.type))) = true := by
  have hw := (h.wf.typeWf ht).fields g hg
  obtain ⟨k1, k2, k3, k4⟩ := key_scalar (hw.key kk hs)
  have h1 : typeOk (program f) Γ (scalarTy kk) = true := by
    have := typeOk_elem (type := []) h ho k2 (fun e => absurd e k1) (fun e => absurd e k3)
    rwa [elemTy_scalar k1 k3] at this
  have h2 : typeOk (program f) Γ (elemTy g.kind (camel g.type)) = true := by
    refine typeOk_elem h ho hw.kind (fun e => ?_) (fun e => ?_)
    · obtain ⟨t', ht', he'⟩ := message_type h ht hg e
      exact ⟨t', ht', he', hun _ (he' ▸ mem_declared_type h ht')⟩
    · exact ⟨(h.closed t ht g hg).2 e, hun _ (declared_enum_name ((h.closed t ht g hg).2 e))⟩
  rw [typeOk, h1, h2, key_comparable (good_program h.wf) (hw.key kk hs)]
  rfl

theorem decl_mapType (h : f.Plain) {t : Bytes × List FieldD} (ht : t ∈ f.types) {g : FieldD} (hg : g ∈ t.2) {kk : PKind} (hs : g.shape = .map kk) :
    ∀ d ∈ mapDecls (mapName t.1 g) (scalarTy kk) (elemTy g.kind (camel g.type)), decl (program f) d = true := by
  have hP := good_program (lib := lib) h.wf
  have hty := typeOk_map h ht hg hs Open.nil (fun _ _ => rfl)
  intro d hd
  simp only [mapDecls, List.mem_cons, List.not_mem_nil, or_false] at hd
  rcases hd with rfl | rfl
  · simp only [decl, hty, Bool.and_self]
  · refine decl_func (new_ne _).1 (new_ne _).2 (by show [go!"size"].Nodup; decide +kernel) ?_ ?_ ?_ (.inr rfl)
    · intro q hq
      rw [List.mem_singleton] at hq
      subst hq
      exact typeOk_basic (lib := lib) Open.nil (by decide +kernel)
    · intro u hu
      rw [Option.toList_some, List.mem_singleton] at hu
      subst hu
      exact hty
    · refine ⟨_, stmt_ret1_block (u := .vals [.map (scalarTy kk) (elemTy g.kind (camel g.type))]) ?_ (assignable_self _)⟩
      have ho : Open [(go!"size", tUint32)] := Open.nil.cons (by decide +kernel) _
      have h1 : expr (program f) [(go!"size", tUint32)] (.var go!"size") = some (.vals [tUint32]) := expr_var (lookup_cons_self ..)
      have h2 := typeOk_map h ht hg hs ho (Unhid.cons (fun _ _ => rfl) (not_declared h.wf ⟨_, _, rfl, by decide⟩) _)
      have h3 : List.lookup go!"make" [(go!"size", tUint32)] = none := ho _ make_keep
      have h4 : isIndex (program f) (.vals [tUint32]) = true := by simp [isIndex, integer_uint32 hP]
      show expr (program f) [(go!"size", tUint32)] _ = _
      simp only [expr, lookup_cons_self, makeOk, h2, h3, h4, underlying]
      rfl

end

end GoCheck
