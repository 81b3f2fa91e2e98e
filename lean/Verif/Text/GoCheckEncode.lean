import Verif.Text.GoCheckBase

/-!
# The generated encoders compile
-/

namespace GoCheck

open Utils Text GoAst GoText
open Gen (PKind Field)
open GoRun (findStruct findType findFunc findMethod findErr base Func structOf fieldIndex kinds tBool tUint32 tInt tError tBytes tBuffer tEncoder tDecoder tKind
  lookup_cons_ne lookup_cons_self)

variable {lib : Lib}

/-! ## The program -/

theorem units_no_imports {u : GoText.Unit} {d : Decl} (hd : d ∈ u.decls) : (∀ ps, d ≠ .imports ps) ∧ ∀ n, d ≠ .package n := by
  constructor <;>
  · rintro x rfl
    cases u <;> simp [Unit.decls, enumDecls, mapDecls, encodeMapFunc, decodeMapFunc, msgDecls, newFunc, errorFunc, encodeDecl, encodeFunc, decodeApi, decodeDecl,
      decodeFunc] at hd

theorem importPaths_program (f : FileD) : importPaths (program f) = RequiredImports.map ofBytes := by
  rw [importPaths, program_units, List.flatMap_append]
  have : (f.units.flatMap Unit.decls).flatMap pathsOf = [] := by
    rw [List.flatMap_eq_nil_iff]
    intro d hd
    obtain ⟨u, _, hd⟩ := List.mem_flatMap.mp hd
    unfold pathsOf
    split
    · exact absurd rfl ((units_no_imports hd).1 _)
    · rfl
  rw [this]
  simp [headDecls, errorsDecl, pathsOf]

theorem good_program {f : FileD} (h : f.Wf) : Good (program f) where
  names := fun n hn => not_declared h (keep_lower n hn)
  imports := by
    rw [imported, importPaths_program]
    cases lib <;> decide +kernel

section
variable {f : FileD} {Γ : Vars}

theorem structOf_type (h : f.Plain) {t : Bytes × List FieldD} (ht : t ∈ f.types) :
    structOf (program f) (.ptr (.name (camel t.1))) = some (t.2.map fun g => (camel g.name, fieldTy t.1 g)) := find_struct h ht

theorem x_ne {n : Ident} {t : Ty} (h : Γ.lookup n = some t) (P : List Decl) : ∀ p, Expr.var n = .var p → isPackage P Γ p = false := by
  intro p hp
  cases hp
  exact isPackage_local h

theorem field_of (h : f.Plain) {t : Bytes × List FieldD} (ht : t ∈ f.types) {g : FieldD} (hg : g ∈ t.2) (hx : Γ.lookup go!"x" = some (.ptr (.name (camel t.1)))) :
    fieldOf (program f) (camel g.name) (expr (program f) Γ vx) = some (.vals [fieldTy t.1 g]) := by
  obtain ⟨i, hi⟩ := List.getElem?_of_mem hg
  rw [vx, expr_var hx, fieldOf, structOf_type h ht]
  simp only [GoRun.fieldIndex_eq (ty := fieldTy t.1) (h.fields t ht) hi, Option.map_some]

/-- `x.F` -/
theorem expr_field (h : f.Plain) {t : Bytes × List FieldD} (ht : t ∈ f.types) {g : FieldD} (hg : g ∈ t.2) (hx : Γ.lookup go!"x" = some (.ptr (.name (camel t.1)))) :
    expr (program f) Γ (xf (camel g.name)) = some (.vals [fieldTy t.1 g]) := by
  rw [xf, expr_sel (e := vx) (x_ne hx _), field_of h ht hg hx]

/-- `x.F = …` -/
theorem left_field (h : f.Plain) {t : Bytes × List FieldD} (ht : t ∈ f.types) {g : FieldD} (hg : g ∈ t.2) (hx : Γ.lookup go!"x" = some (.ptr (.name (camel t.1)))) :
    left (program f) Γ (xf (camel g.name)) = some (fieldTy t.1 g) :=
  left_sel (x_ne hx _) (field_of h ht hg hx)

/-- The message type of a field. -/
theorem message_type (h : f.Plain) {t : Bytes × List FieldD} (ht : t ∈ f.types) {g : FieldD} (hg : g ∈ t.2) (hk : g.kind = .message) :
    ∃ t' ∈ f.types, t'.1 = g.type := by
  obtain ⟨t', h1, h2⟩ := GoRun.type_ref h ht hg hk
  exact ⟨t', List.mem_of_getElem? h1, h2⟩

theorem integer_enum (h : f.Plain) {n : Bytes} (hn : n ∈ f.enumNames) : integer (program f) (.name (camel n)) = some (2 ^ 32) := by
  rw [integer, underlying, (find_enum h hn).1, Option.getD_some]
  decide +kernel

theorem scalar_method {k : PKind} (h1 : k ≠ .message) (h2 : k ≠ .group) (h3 : k ≠ .enum) :
    encoderMethods.lookup (method k) = some ⟨[scalarTy k], [tEncoder]⟩ := by
  cases k <;> first | contradiction | decide +kernel

theorem elemTy_scalar {k : PKind} {t : Ident} (h1 : k ≠ .message) (h3 : k ≠ .enum) : elemTy k t = scalarTy k := by
  cases k <;> first | contradiction | rfl

/-- What the encoders have in scope. -/
structure EncScope (Γ : Vars) (t : Ty) : Prop where
  o : Open Γ
  x : Γ.lookup go!"x" = some t
  b : Γ.lookup go!"b" = some tBuffer

/-- An expression that is an encoder, with a call last. -/
structure IsEncoder [Lib] (P : List Decl) (Γ : Vars) (e : Expr) : Prop where
  ty : expr P Γ e = some (.vals [tEncoder])
  var : ∀ p, e = .var p → isPackage P Γ p = false
  call : isCall P Γ e = true

theorem isEncoder_encoder {P : List Decl} (hP : Good P) (hΓ : Open Γ) (hb : Γ.lookup go!"b" = some tBuffer) : IsEncoder P Γ encoder := by
  refine ⟨expr_encoder hP hΓ hb, encoder_ne, ?_⟩
  simp only [encoder, polyglot, isCall, callee, isPackage_polyglot hP hΓ, if_true]
  cases lib <;> decide +kernel

/-- The next call of a chain. -/
theorem isEncoder_value (h : f.Plain) {t : Bytes × List FieldD} (ht : t ∈ f.types) (hs : EncScope Γ (.ptr (.name (camel t.1)))) {g : FieldD} (hg : g ∈ t.2)
    (hv : g.isValue = true) {e : Expr} (he : IsEncoder (program f) Γ e) : IsEncoder (program f) Γ (encValue (camel g.name) g.kind e) := by
  have hP := good_program (lib := lib) h.wf
  have hsup := GoRun.supported_field h ht hg
  have hf := expr_field h ht hg hs.x
  obtain ⟨name, shape, k, type⟩ := g
  cases shape with
  | many => simp [FieldD.isValue] at hv
  | map kk => simp [FieldD.isValue] at hv
  | one r =>
    simp only [FieldD.isValue, decide_eq_true_eq] at hv
    simp only [FieldD.toField, Field.GoSupported] at hsup
    simp only [fieldTy] at hf
    by_cases hen : k = .enum
    · subst hen
      have hc := callee_encoder he.var he.ty (m := method .enum) (s := ⟨[tUint32], [tEncoder]⟩) (by decide +kernel)
      have ha := expr_uint32 hP hs.o hf (by rw [elemTy, integer_enum h ((h.closed t ht _ hg).2 rfl)]; rfl)
      refine ⟨?_, by intro p hp; simp [encValue] at hp, ?_⟩
      · simp only [encValue, if_true]
        exact expr_call1 hc ha (args_one _)
      · simp only [encValue, isCall, hc]
    · have hc := callee_encoder he.var he.ty (scalar_method hv hsup hen)
      rw [elemTy_scalar hv hen] at hf
      refine ⟨?_, by intro p hp; simp [encValue] at hp, ?_⟩
      · simp only [encValue, if_neg hen]
        exact expr_call1 hc hf (args_one _)
      · simp only [encValue, isCall, hc]

theorem isEncoder_chain (h : f.Plain) {t : Bytes × List FieldD} (ht : t ∈ f.types) (hs : EncScope Γ (.ptr (.name (camel t.1)))) :
    ∀ (l : List FieldD), (∀ g ∈ l, g ∈ t.2 ∧ g.isValue = true) → ∀ {e : Expr}, IsEncoder (program f) Γ e →
      IsEncoder (program f) Γ (l.foldl (fun e f => encValue (camel f.name) f.kind e) e)
  | [], _, _, he => he
  | g :: l, hl, _, he =>
    isEncoder_chain h ht hs l (fun g hg => hl g (List.mem_cons_of_mem _ hg))
      (isEncoder_value h ht hs (hl g (List.mem_cons_self ..)).1 (hl g (List.mem_cons_self ..)).2 he)

theorem IsEncoder.stmt {P : List Decl} {ret : Option Ty} {Γ : Env} {e : Expr} (h : IsEncoder P Γ.vars e) : stmt P ret (.expr e) Γ = some Γ := by
  simp [GoCheck.stmt, h.call, h.ty]

/-- `v.Encode(b)`, `x.F.Encode(b)` for a message type. -/
theorem callee_encode (h : f.Plain) {t : Bytes × List FieldD} (ht : t ∈ f.types) {e : Expr} (he : ∀ p, e = .var p → isPackage (program f) Γ p = false)
    (hty : expr (program f) Γ e = some (.vals [.ptr (.name (camel t.1))])) : callee (program f) Γ (.sel e go!"Encode") = some (.func ⟨[tBuffer], []⟩) := by
  rw [callee_sel he, hty, method_own (n := camel t.1) rfl (find_encode h ht) rfl]
  rfl

/-- A repeated field. -/
theorem keeps_slice (h : f.Plain) {t : Bytes × List FieldD} (ht : t ∈ f.types) {Γ : Env} (hs : EncScope Γ.vars (.ptr (.name (camel t.1)))) {g : FieldD} (hg : g ∈ t.2)
    (hm : g.shape = .many) (ret : Option Ty) : Keeps (program f) ret (encSlice (camel g.name) g.kind) Γ := by
  have hP := good_program (lib := lib) h.wf
  have hsup := GoRun.supported_field h ht hg
  have hf := expr_field h ht hg hs.x
  have henc := isEncoder_encoder hP hs.o hs.b
  simp only [FieldD.toField, hm, Field.GoSupported] at hsup
  simp only [fieldTy, hm] at hf
  have hmany : manyTy g.kind g.type = elemTy g.kind (camel g.type) := by
    unfold manyTy
    split
    · rename_i he; exact absurd he hsup.2.1
    · rfl
  rw [hmany] at hf
  show Keeps (program f) ret ([_] ++ [_]) Γ
  refine Keeps.append (.one ?_ rfl rfl) (.one ?_ rfl rfl)
  · have hc := callee_encoder henc.var henc.ty (m := go!"Slice") (s := ⟨[tUint32, tKind], [tEncoder]⟩) (by decide +kernel)
    simp only [stmt, isCall, hc, expr_call2 hc (expr_size hP hs.o hf (.inl ⟨_, rfl⟩)) (expr_kind hP hs.o g.kind) (by simp [argsOk, assignable_self])]
    rfl
  · have hv : go!"v" ∉ keep := by decide +kernel
    have hvb : go!"b" ≠ go!"v" := by decide +kernel
    have hvx : go!"x" ≠ go!"v" := by decide +kernel
    have ho : Open ((go!"v", elemTy g.kind (camel g.type)) :: Γ.vars) := hs.o.cons hv _
    have hb' : List.lookup go!"b" ((go!"v", elemTy g.kind (camel g.type)) :: Γ.vars) = some tBuffer := by rw [lookup_cons_ne hvb]; exact hs.b
    have hr : rangeTypes (program f) (some (.vals [.slice (elemTy g.kind (camel g.type))])) = some (tInt, elemTy g.kind (camel g.type)) := rfl
    have hd : (Γ.inner.declare go!"_" tInt).bind (·.declare go!"v" (elemTy g.kind (camel g.type))) =
        some ⟨(go!"v", elemTy g.kind (camel g.type)) :: Γ.vars, [go!"v"]⟩ := by
      have : go!"v" ≠ go!"_" := by decide +kernel
      simp [Env.declare, Env.inner, this]
    have hu : ∀ b, usedIn go!"_" b = true := by intro b; simp [usedIn]
    simp only [stmt, hf, hr, hd, hu, simple_block]
    have hfin : ∀ e, (mentions go!"v" e = true) → stmt (program f) ret (.expr e) ⟨(go!"v", elemTy g.kind (camel g.type)) :: Γ.vars, []⟩ =
        some ⟨(go!"v", elemTy g.kind (camel g.type)) :: Γ.vars, []⟩ →
        (if (!(decide (go!"_" = go!"_") && decide (go!"v" = go!"_")) && true && usedIn go!"v" (block [.expr e]) && !false &&
          (stmt (program f) ret (block [.expr e]) (Env.inner ⟨(go!"v", elemTy g.kind (camel g.type)) :: Γ.vars, [go!"v"]⟩)).isSome) = true then some Γ else none) = some Γ := by
      intro e hme hse
      have h1 : (!(decide (go!"_" = go!"_") && decide (go!"v" = go!"_"))) = true := by decide +kernel
      have h2 : usedIn go!"v" (block [.expr e]) = true := by
        rw [usedIn, uses_block (n := go!"v") (ss := [.expr e]) ⟨.expr e, List.mem_singleton_self _, hme⟩ (by intro s hs; rw [List.mem_singleton] at hs; subst hs; simp [newNames])]
        simp
      have h3 : stmt (program f) ret (block [.expr e]) (Env.inner ⟨(go!"v", elemTy g.kind (camel g.type)) :: Γ.vars, [go!"v"]⟩) = some _ :=
        (Keeps.one hse rfl rfl).done
      rw [h1, h2, h3]; rfl
    by_cases hmsg : g.kind = .message
    · obtain ⟨t', ht', he'⟩ := message_type h ht hg hmsg
      rw [if_pos hmsg]
      refine hfin _ (by decide +kernel) ?_
      refine stmt_expr1 (s := ⟨[tBuffer], []⟩) (u := .vals [tBuffer]) ?_ (expr_var hb') (args_one _)
      refine callee_encode h ht' (x_ne (lookup_cons_self ..) _) ?_
      rw [vv, expr_var (lookup_cons_self ..), he', hmsg]; rfl
    · rw [if_neg hmsg]
      refine hfin _ (by simp [mentions, vv]) ?_
      have henc' := isEncoder_encoder hP ho hb'
      refine stmt_expr1 (callee_encoder henc'.var henc'.ty (scalar_method hmsg hsup.1 hsup.2.1)) (expr_var (lookup_cons_self ..)) ?_
      rw [elemTy_scalar hmsg hsup.2.1]
      exact args_one _

/-- A message or map field. -/
theorem keeps_message (h : f.Plain) {t : Bytes × List FieldD} (ht : t ∈ f.types) {Γ : Env} (hs : EncScope Γ.vars (.ptr (.name (camel t.1)))) {g : FieldD} (hg : g ∈ t.2)
    (hm : g.isMessage = true) (ret : Option Ty) : Keeps (program f) ret [encMessage (camel g.name)] Γ := by
  have hf := expr_field h ht hg hs.x
  have hx : ∀ p, xf (camel g.name) = .var p → isPackage (program f) Γ.vars p = false := by intro p hp; simp [xf] at hp
  refine .one (stmt_expr1 (s := ⟨[tBuffer], []⟩) (u := .vals [tBuffer]) ?_ (expr_var hs.b) (args_one _)) rfl rfl
  cases hsh : g.shape with
  | many => simp [FieldD.isMessage, hsh] at hm
  | one r =>
    simp only [FieldD.isMessage, hsh, decide_eq_true_eq] at hm
    obtain ⟨t', ht', he'⟩ := message_type h ht hg hm
    refine callee_encode h ht' hx ?_
    rw [hf, fieldTy, hsh, hm, he']; rfl
  | map kk =>
    rw [callee_sel hx, hf, fieldTy, hsh]
    rw [method_own (n := mapName t.1 g) rfl (find_mapEncode h ht hg hsh) rfl]
    rfl

/-! ## Functions -/

theorem decl_method {P : List Decl} {r : Ident × Ty} {n : Ident} {ps : List (Ident × Ty)} {t : Option Ty} {ss : List Stmt} (hr : receiverOk P r.2 = true)
    (hn : ((r :: ps).map (·.1)).Nodup) (hty : ∀ q ∈ r :: ps, typeOk P [] q.2 = true) (hres : ∀ u ∈ t.toList, typeOk P [] u = true)
    (hb : ∃ Γ', stmt P t (block ss) ⟨r :: ps, (r :: ps).map (·.1)⟩ = some Γ') (ht : t = none ∨ terminates (block ss) = true) :
    decl P (.func (some r) n ps t (block ss)) = true := by
  obtain ⟨Γ', hb⟩ := hb
  simp only [decl, Option.toList_some, List.singleton_append, hr, hn, hb, simple_block, Bool.and_eq_true, List.all_eq_true, decide_true, Bool.not_false, Option.isSome_some,
    and_true, true_and]
  refine ⟨⟨hty, hres⟩, ?_⟩
  rcases ht with rfl | ht
  · rfl
  · simp [ht]

theorem decl_func {P : List Decl} {n : Ident} {ps : List (Ident × Ty)} {t : Option Ty} {ss : List Stmt} (hi : n ≠ go!"init") (hmn : n ≠ go!"main")
    (hn : (ps.map (·.1)).Nodup) (hty : ∀ q ∈ ps, typeOk P [] q.2 = true) (hres : ∀ u ∈ t.toList, typeOk P [] u = true)
    (hb : ∃ Γ', stmt P t (block ss) ⟨ps, ps.map (·.1)⟩ = some Γ') (ht : t = none ∨ terminates (block ss) = true) :
    decl P (.func none n ps t (block ss)) = true := by
  obtain ⟨Γ', hb⟩ := hb
  simp only [decl, Option.toList_none, List.nil_append, hn, hb, simple_block, Bool.and_eq_true, List.all_eq_true, decide_true, Bool.not_false, Option.isSome_some,
    and_true]
  refine ⟨⟨⟨by simp [hi, hmn], hty⟩, hres⟩, ?_⟩
  rcases ht with rfl | ht
  · rfl
  · simp [ht]

theorem typeOk_lib {P : List Decl} (hP : Good P) {n : Ident} (hn : [go!"Buffer", go!"BufferEncoder", Lib.pick go!"Decoder" go!"BufferDecoder", go!"Kind"].contains n = true) :
    typeOk P [] (.qual go!"polyglot" n) = true := by
  rw [typeOk, isPackage_polyglot hP Open.nil, hn]; simp

theorem typeOk_basic {P : List Decl} {n : Ident} (hΓ : Open Γ) (hn : n ∈ basicTypes) : typeOk P Γ (.name n) = true := by
  rw [typeOk, hΓ n (basic_keep n hn)]
  simp [hn]

theorem typeOk_struct {P : List Decl} {n : Ident} {fs : List (Ident × Ty)} (h : findStruct P n = some fs) (hΓ : Γ.lookup n = none) : typeOk P Γ (.name n) = true := by
  simp [typeOk, isDefined, h, hΓ]

theorem typeOk_type {P : List Decl} {n : Ident} {u : Ty} (h : findType P n = some u) (hΓ : Γ.lookup n = none) : typeOk P Γ (.name n) = true := by
  simp [typeOk, isDefined, h, hΓ]

theorem findType_struct {P : List Decl} (hP : Distinct P) {n : Ident} {fs : List (Ident × Ty)} (h : .struct n fs ∈ P) : findType P n = none := by
  rw [findType, List.findSome?_eq_none_iff]
  intro b hb
  split
  · rename_i m u
    by_cases hm : m = n
    · subst hm
      have := unique_of_nodup hP (x := m) h hb (by simp [Decl.declared]) (by simp [Decl.declared])
      cases this
    · simp [hm]
  · rfl

theorem receiver_ptr (h : f.Plain) {t : Bytes × List FieldD} (ht : t ∈ f.types) : receiverOk (program f) (.ptr (.name (camel t.1))) = true := by
  have := findType_struct h.distinct (mem_decl h ht (d := .struct (camel t.1) (t.2.map fun g => (camel g.name, fieldTy t.1 g))) (List.mem_cons_self ..))
  simp [receiverOk, base, isDefined, find_struct h ht, this]

theorem receiver_map (h : f.Plain) {t : Bytes × List FieldD} (ht : t ∈ f.types) {g : FieldD} (hg : g ∈ t.2) {kk : PKind} (hs : g.shape = .map kk) :
    receiverOk (program f) (.name (mapName t.1 g)) = true := by
  simp [receiverOk, base, isDefined, find_mapType h ht hg hs]

theorem encScope (t : Ty) : EncScope [(go!"x", t), (go!"b", tBuffer)] t where
  o := (Open.nil.cons (by decide +kernel) _).cons (by decide +kernel) _
  x := lookup_cons_self ..
  b := by rw [lookup_cons_ne (by decide +kernel)]; exact lookup_cons_self ..

theorem isBool_eq {P : List Decl} (hP : Good P) (hΓ : Open Γ) {e : Expr} {t : Ty} (h : expr P Γ e = some (.vals [t])) (hn : nilable P t = true) :
    isBool P (expr P Γ (.eq e vnil)) = true := by
  rw [(eq_nil hP hΓ h hn).1, bool_ok hP]

/-- `polyglot.Encoder(b).Nil()` -/
theorem keeps_nil {P : List Decl} (hP : Good P) {Γ : Env} (hΓ : Open Γ.vars) (hb : Γ.vars.lookup go!"b" = some tBuffer) (ret : Option Ty) :
    Keeps P ret [.expr (.call0 (.sel encoder go!"Nil"))] Γ := by
  have henc := isEncoder_encoder hP hΓ hb
  have hc := callee_encoder henc.var henc.ty (m := go!"Nil") (s := ⟨[], [tEncoder]⟩) (by decide +kernel)
  refine .one ?_ rfl rfl
  simp only [stmt, isCall, hc, expr_call0 hc rfl]
  rfl

theorem encode_body (h : f.Plain) {t : Bytes × List FieldD} (ht : t ∈ f.types) {Γ : Env} (hs : EncScope Γ.vars (.ptr (.name (camel t.1)))) (ret : Option Ty) :
    Keeps (program f) ret ((if t.2.filter FieldD.isValue = [] then [] else
        [.expr ((t.2.filter FieldD.isValue).foldl (fun e f => encValue (camel f.name) f.kind e) encoder)]) ++
      (t.2.filter FieldD.isSlice).flatMap (fun f => encSlice (camel f.name) f.kind) ++ (t.2.filter FieldD.isMessage).map fun f => encMessage (camel f.name)) Γ := by
  have hP := good_program (lib := lib) h.wf
  refine Keeps.append (Keeps.append ?_ (Keeps.all _ ?_)) ?_
  · split
    · exact .nil _
    · exact .one (IsEncoder.stmt (isEncoder_chain h ht hs _ (fun g hg => ⟨(List.mem_filter.mp hg).1, (List.mem_filter.mp hg).2⟩)
        (isEncoder_encoder hP hs.o hs.b))) rfl rfl
  · intro g hg
    obtain ⟨h1, h2⟩ := List.mem_filter.mp hg
    refine keeps_slice h ht hs h1 ?_ _
    unfold FieldD.isSlice at h2
    split at h2
    · assumption
    · cases h2
  · rw [List.map_eq_flatMap]
    refine Keeps.all _ fun g hg => ?_
    obtain ⟨h1, h2⟩ := List.mem_filter.mp hg
    exact keeps_message h ht hs h1 h2 _

theorem decl_encode (h : f.Plain) {t : Bytes × List FieldD} (ht : t ∈ f.types) : decl (program f) (encodeDecl t.1 t.2) = true := by
  have hP := good_program (lib := lib) h.wf
  unfold encodeDecl encodeFunc
  have hsc := encScope (.ptr (.name (camel t.1)))
  refine decl_method (receiver_ptr h ht) ?_ ?_ (by simp) ?_ (.inl rfl)
  · show [go!"x", go!"b"].Nodup
    decide +kernel
  · intro q hq
    simp only [List.mem_cons, List.not_mem_nil, or_false] at hq
    rcases hq with rfl | rfl
    · exact typeOk_struct (lib := lib) (find_struct h ht) rfl
    · exact typeOk_lib hP (by cases lib <;> decide +kernel)
  · exact ⟨_, (Keeps.one (stmt_ite (isBool_eq hP hsc.o (expr_var hsc.x) rfl) (keeps_nil hP hsc.o hsc.b _).done (encode_body h ht hsc _).done) rfl rfl).done⟩

/-! ## Maps -/

/-- Kinds of map keys. -/
theorem key_scalar {k : PKind} (h : IsKey k) : k ≠ .message ∧ k ≠ .group ∧ k ≠ .enum ∧ k ≠ .bytes := by
  cases k <;> first | (exact ⟨by decide, by decide, by decide, by decide⟩) | (simp [IsKey] at h)

/-- One key or value of the loop: a variable `n` of the type of kind `k`. -/
theorem keeps_entry (h : f.Plain) {Γ : Env} (hΓ : Open Γ.vars) (hb : Γ.vars.lookup go!"b" = some tBuffer) {n : Ident} {k : PKind} {type : Bytes}
    (hn : Γ.vars.lookup n = some (elemTy k (camel type))) (hk : k ≠ .group) (hm : k = .message → ∃ t' ∈ f.types, t'.1 = type)
    (he : k = .enum → type ∈ f.enumNames) (ret : Option Ty) : Keeps (program f) ret [encEntry (.var n) k] Γ := by
  have hP := good_program (lib := lib) h.wf
  have henc := isEncoder_encoder hP hΓ hb
  refine .one ?_ rfl rfl
  unfold encEntry
  by_cases hmsg : k = .message
  · obtain ⟨t', ht', he'⟩ := hm hmsg
    subst hmsg
    rw [if_pos rfl]
    refine stmt_expr1 (s := ⟨[tBuffer], []⟩) (u := .vals [tBuffer]) ?_ (expr_var hb) (args_one _)
    refine callee_encode h ht' (x_ne hn _) ?_
    rw [expr_var hn, he']; rfl
  · rw [if_neg hmsg]
    by_cases hen : k = .enum
    · subst hen
      rw [if_pos rfl]
      refine stmt_expr1 (callee_encoder henc.var henc.ty (m := method .enum) (s := ⟨[tUint32], [tEncoder]⟩) (by decide +kernel)) ?_ (args_one _)
      exact expr_uint32 hP hΓ (expr_var hn) (by rw [elemTy, integer_enum h (he rfl)]; rfl)
    · rw [if_neg hen]
      refine stmt_expr1 (callee_encoder henc.var henc.ty (scalar_method hmsg hk hen)) (expr_var hn) ?_
      rw [elemTy_scalar hmsg hen]
      exact args_one _

theorem uses_entry (n : Ident) (k : PKind) : uses n (encEntry (.var n) k) = true := by
  unfold encEntry
  split
  · simp [uses, mentions]
  · split <;> simp [uses, mentions, uint32]

theorem decl_mapEncode (h : f.Plain) {t : Bytes × List FieldD} (ht : t ∈ f.types) {g : FieldD} (hg : g ∈ t.2) {kk : PKind} (hs : g.shape = .map kk) :
    decl (program f) (encodeMapFunc (mapName t.1 g) kk g.kind) = true := by
  have hP := good_program (lib := lib) h.wf
  have hw := (h.wf.typeWf ht).fields g hg
  obtain ⟨k1, k2, k3, _⟩ := key_scalar (hw.key kk hs)
  unfold encodeMapFunc
  have hsc := encScope (.name (mapName t.1 g))
  have hnil := nilable_map (find_mapType h ht hg hs)
  have hu : underlying (program f) (.name (mapName t.1 g)) = .map (scalarTy kk) (elemTy g.kind (camel g.type)) := by
    rw [underlying, find_mapType h ht hg hs]; rfl
  refine decl_method (receiver_map h ht hg hs) ?_ ?_ (by simp) ?_ (.inl rfl)
  · show [go!"x", go!"b"].Nodup
    decide +kernel
  · intro q hq
    simp only [List.mem_cons, List.not_mem_nil, or_false] at hq
    rcases hq with rfl | rfl
    · exact typeOk_type (find_mapType h ht hg hs) rfl
    · exact typeOk_lib hP (by cases lib <;> decide +kernel)
  · refine ⟨_, (Keeps.one (stmt_ite (isBool_eq hP hsc.o (expr_var hsc.x) hnil) (Keeps.done ?_) (Keeps.done ?_)) rfl rfl).done⟩
    all_goals
      generalize hΓ : (Env.inner _ : Env) = Γ
      have hsc' : EncScope Γ.vars (.name (mapName t.1 g)) := by rw [← hΓ]; exact hsc
      clear hsc hΓ
      have henc := isEncoder_encoder hP hsc'.o hsc'.b
      have hc := callee_encoder henc.var henc.ty (m := go!"Map") (s := ⟨[tUint32, tKind, tKind], [tEncoder]⟩) (by decide +kernel)
    · refine .one ?_ rfl rfl
      have hz : expr (program f) Γ.vars (.num go!"0") = some (.int 0) := by
        have : decimalValue go!"0" = some 0 := by decide +kernel
        simp [expr, this]
      have ha : assignable (program f) tUint32 (.int 0) = true := by simp [assignable, integer_uint32 hP]
      simp only [stmt, isCall, hc, expr_call3 hc hz (expr_kind hP hsc'.o kk) (expr_kind hP hsc'.o g.kind) (by simp [argsOk, assignable_self, ha])]
      rfl
    · show Keeps (program f) none ([_] ++ [_]) Γ
      refine .append (.one ?_ rfl rfl) (.one ?_ rfl rfl)
      · simp only [stmt, isCall, hc, expr_call3 hc (expr_size hP hsc'.o (e := vx) (expr_var hsc'.x) (.inr ⟨_, _, hu⟩)) (expr_kind hP hsc'.o kk) (expr_kind hP hsc'.o g.kind)
          (by simp [argsOk, assignable_self])]
        rfl
      · have hr : rangeTypes (program f) (expr (program f) Γ.vars vx) = some (scalarTy kk, elemTy g.kind (camel g.type)) := by
          rw [vx, expr_var hsc'.x]
          simp only [rangeTypes, hu]
        have hd : (Γ.inner.declare go!"k" (scalarTy kk)).bind (·.declare go!"v" (elemTy g.kind (camel g.type))) =
            some ⟨(go!"v", elemTy g.kind (camel g.type)) :: (go!"k", scalarTy kk) :: Γ.vars, [go!"v", go!"k"]⟩ := by
          have h1 : go!"v" ≠ go!"_" := by decide +kernel
          have h2 : go!"k" ≠ go!"_" := by decide +kernel
          have h3 : go!"v" ≠ go!"k" := by decide +kernel
          simp [Env.declare, Env.inner, h1, h2, h3]
        have hk : usedIn go!"k" (block [encEntry vk kk, encEntry vv g.kind]) = true := by
          rw [usedIn, uses_block (ss := [encEntry vk kk, encEntry vv g.kind]) ⟨_, List.mem_cons_self .., uses_entry _ _⟩]
          · simp
          · intro s hs
            simp only [List.mem_cons, List.not_mem_nil, or_false] at hs
            rcases hs with rfl | rfl <;> simp [encEntry, newNames]
        have hv : usedIn go!"v" (block [encEntry vk kk, encEntry vv g.kind]) = true := by
          rw [usedIn, uses_block (ss := [encEntry vk kk, encEntry vv g.kind]) ⟨_, List.mem_cons_of_mem _ (List.mem_cons_self ..), uses_entry _ _⟩]
          · simp
          · intro s hs
            simp only [List.mem_cons, List.not_mem_nil, or_false] at hs
            rcases hs with rfl | rfl <;> simp [encEntry, newNames]
        refine stmt_range (Γ2 := _) hr hd (by decide +kernel) hk hv (Keeps.done ?_)
        generalize hΓ2 : (Env.inner _ : Env) = Γ2
        have hlv : Γ2.vars.lookup go!"v" = some (elemTy g.kind (camel g.type)) := by rw [← hΓ2]; exact lookup_cons_self ..
        have hlk : Γ2.vars.lookup go!"k" = some (elemTy kk (camel [])) := by
          rw [← hΓ2, elemTy_scalar k1 k3]
          exact (lookup_cons_ne (by decide +kernel) ..).trans (lookup_cons_self ..)
        have hlb : Γ2.vars.lookup go!"b" = some tBuffer := by
          rw [← hΓ2]
          exact (lookup_cons_ne (by decide +kernel) ..).trans ((lookup_cons_ne (by decide +kernel) ..).trans hsc'.b)
        have ho : Open Γ2.vars := by rw [← hΓ2]; exact (hsc'.o.cons (by decide +kernel) _).cons (by decide +kernel) _
        clear hΓ2
        show Keeps (program f) none ([encEntry vk kk] ++ [encEntry vv g.kind]) Γ2
        exact .append (keeps_entry (type := []) h ho hlb hlk k2 (fun e => absurd e k1) (fun e => absurd e k3) _)
          (keeps_entry h ho hlb hlv hw.kind (message_type h ht hg) (h.closed t ht g hg).2 _)

end

end GoCheck
