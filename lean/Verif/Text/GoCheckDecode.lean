import Verif.Text.GoCheckEncode

/-!
# The generated decoders compile
-/

namespace GoCheck

open Utils Text GoAst GoText
open Gen (PKind Field)
open Package (EnumD qualify)
open GoRun (findStruct findType findFunc findMethod findErr base Func structOf fieldIndex kinds tBool tUint32 tInt tError tBytes tBuffer tEncoder tDecoder tKind
  lookup_cons_ne lookup_cons_self)

variable {lib : Lib}

/-- What the decoders have in scope. -/
structure DecScope [Lib] (f : FileD) (Γ : Vars) (t : Ty) : Prop where
  o : Open Γ
  x : Γ.lookup go!"x" = some t
  d : Γ.lookup go!"d" = some tDecoder
  err : Γ.lookup go!"err" = some tError

/-- No local variable hides a declaration of the file. -/
def Unhid [Lib] (f : FileD) (Γ : Vars) : Prop := ∀ n ∈ declared (program f), Γ.lookup n = none

theorem Unhid.cons {f : FileD} {Γ : Vars} (h : Unhid f Γ) {n : Ident} (hn : n ∉ declared (program f)) (t : Ty) : Unhid f ((n, t) :: Γ) := by
  intro m hm
  rw [lookup_cons_ne (by rintro rfl; exact hn hm)]
  exact h m hm

/-- No local variable has one of these names. -/
def Free (U : List Ident) (Γ : Vars) : Prop := ∀ n ∈ U, Γ.lookup n = none

theorem Free.cons {U : List Ident} {Γ : Vars} (h : Free U Γ) {n : Ident} (hn : n ∉ U) (t : Ty) : Free U ((n, t) :: Γ) := by
  intro m hm
  rw [lookup_cons_ne (by rintro rfl; exact hn hm)]
  exact h m hm

theorem Free.mono {U U' : List Ident} {Γ : Vars} (h : Free U Γ) (hs : ∀ n ∈ U', n ∈ U) : Free U' Γ := fun n hn => h n (hs n hn)

theorem not_mem_lower {U : List Ident} (h : ∀ n ∈ U, Upper n) {n : Ident} (hn : Lower n) : n ∉ U := fun hm => upper_ne (h n hm) hn rfl

theorem DecScope.cons {f : FileD} {Γ : Vars} {t : Ty} (h : DecScope f Γ t) {n : Ident} (hk : n ∉ keep) (hx : go!"x" ≠ n) (hd : go!"d" ≠ n) (he : go!"err" ≠ n) (u : Ty) :
    DecScope f ((n, u) :: Γ) t where
  o := h.o.cons hk u
  x := by rw [lookup_cons_ne hx]; exact h.x
  d := by rw [lookup_cons_ne hd]; exact h.d
  err := by rw [lookup_cons_ne he]; exact h.err

theorem lower_ne {n m : Ident} (h : Upper n) (hm : Lower m) : m ≠ n := fun e => upper_ne h hm e.symm

theorem DecScope.cons_upper {f : FileD} {Γ : Vars} {t : Ty} (h : DecScope f Γ t) {n : Ident} (hn : Upper n) (u : Ty) : DecScope f ((n, u) :: Γ) t :=
  h.cons (not_keep_upper hn) (lower_ne hn ⟨_, _, rfl, by decide⟩) (lower_ne hn ⟨_, _, rfl, by decide⟩) (lower_ne hn ⟨_, _, rfl, by decide⟩) u

section
variable {f : FileD} {Γ : Vars}

theorem decoder_method {k : PKind} (h1 : k ≠ .message) (h2 : k ≠ .group) (h3 : k ≠ .enum) (h4 : k ≠ .bytes) :
    decoderMethods.lookup (method k) = some ⟨[], [scalarTy k, tError]⟩ := by
  cases lib <;> cases k <;> first | contradiction | decide +kernel

/-- `d.Method()` for a scalar. -/
theorem expr_read {P : List Decl} (hd : Γ.lookup go!"d" = some tDecoder) {k : PKind} (h1 : k ≠ .message) (h2 : k ≠ .group) (h3 : k ≠ .enum) (h4 : k ≠ .bytes) :
    expr P Γ (.call0 (.sel vd (method k))) = some (.vals [scalarTy k, tError]) :=
  expr_call0 (callee_decoder hd (decoder_method h1 h2 h3 h4)) rfl

theorem expr_readEnum {P : List Decl} (hd : Γ.lookup go!"d" = some tDecoder) : expr P Γ (.call0 (.sel vd (method .enum))) = some (.vals [tUint32, tError]) :=
  expr_call0 (callee_decoder hd (m := method .enum) (s := ⟨[], [tUint32, tError]⟩) (by cases lib <;> decide +kernel)) rfl

/-- `T(e)` for an enum type. -/
theorem expr_conv (h : f.Plain) {n : Bytes} (hn : n ∈ f.enumNames) (hΓ : Γ.lookup (camel n) = none) {e : Expr} (he : expr (program f) Γ e = some (.vals [tUint32])) :
    expr (program f) Γ (.call1 (.var (camel n)) e) = some (.vals [.name (camel n)]) := by
  have hc : callee (program f) Γ (.var (camel n)) = some (.conv (.name (camel n))) := by
    simp [callee, hΓ, (find_enum h hn).2, typeOk_type (find_enum h hn).1 hΓ]
  have := integer_uint32 (good_program (lib := lib) h.wf)
  simp [expr, he, hc, result, convertible, this, integer_enum h hn]

/-- `NewT()` -/
theorem expr_new (h : f.Plain) {t : Bytes × List FieldD} (ht : t ∈ f.types) (hΓ : Γ.lookup (go!"New" ++ camel t.1) = none) :
    expr (program f) Γ (.call0 (.var (go!"New" ++ camel t.1))) = some (.vals [.ptr (.name (camel t.1))]) := by
  have hc : callee (program f) Γ (.var (go!"New" ++ camel t.1)) = some (.func ⟨[], [.ptr (.name (camel t.1))]⟩) := by
    simp only [callee, hΓ, find_new h ht]
    rfl
  exact expr_call0 hc rfl

/-- `e.decode(d)` for a message type. -/
theorem expr_decode (h : f.Plain) {t : Bytes × List FieldD} (ht : t ∈ f.types) {e : Expr} (he : ∀ p, e = .var p → isPackage (program f) Γ p = false)
    (hty : expr (program f) Γ e = some (.vals [.ptr (.name (camel t.1))])) {a : Expr} (hd : expr (program f) Γ a = some (.vals [tDecoder])) :
    expr (program f) Γ (.call1 (.sel e go!"decode") a) = some (.vals [tError]) := by
  have hc : callee (program f) Γ (.sel e go!"decode") = some (.func ⟨[tDecoder], [tError]⟩) := by
    rw [callee_sel he, hty, method_own (n := camel t.1) rfl (find_decode h ht) rfl]
    rfl
  exact expr_call1 hc hd (args_one _)

theorem mem_declared_type (h : f.Plain) {t : Bytes × List FieldD} (ht : t ∈ f.types) : camel t.1 ∈ declared (program f) :=
  List.mem_flatMap.mpr ⟨_, mem_decl h ht (List.mem_cons_self ..), by simp [Decl.declared]⟩

/-- The type of values of some kind. -/
theorem typeOk_elem (h : f.Plain) (hΓ : Open Γ) {k : PKind} {type : Bytes} (hk : k ≠ .group)
    (hm : k = .message → ∃ t' ∈ f.types, t'.1 = type ∧ Γ.lookup (camel type) = none) (he : k = .enum → type ∈ f.enumNames ∧ Γ.lookup (camel type) = none) :
    typeOk (program f) Γ (elemTy k (camel type)) = true := by
  by_cases h1 : k = .message
  · subst h1
    obtain ⟨t', ht', rfl, hl⟩ := hm rfl
    exact typeOk_struct (lib := lib) (find_struct h ht') hl
  · by_cases h2 : k = .enum
    · subst h2
      exact typeOk_type (find_enum h (he rfl).1).1 (he rfl).2
    · rw [elemTy_scalar h1 h2]
      cases k <;> first | contradiction | exact typeOk_basic (lib := lib) hΓ (by decide +kernel)

/-! ## Values -/

/-- `F` with `Temp` behind. -/
def temp (g : FieldD) : Ident := camel g.name ++ go!"Temp"

theorem upper_name (h : f.Wf) {t : Bytes × List FieldD} (ht : t ∈ f.types) {g : FieldD} (hg : g ∈ t.2) : Upper (camel g.name) :=
  upper_camel (.one ((h.typeWf ht).fields g hg).name)

/-- The scope between the statements of a decoder. -/
structure DecInv [Lib] (f : FileD) (U : List Ident) (Γ : Env) (t : Ty) : Prop where
  scope : DecScope f Γ.vars t
  free : Free U Γ.vars
  size : go!"sliceSize" ∉ Γ.block

theorem DecScope.check {Γ : Env} {t : Ty} (h : f.Plain) (hs : DecScope f Γ.vars t) : Keeps (program f) (some tError) [check] Γ :=
  keeps_check (good_program h.wf) hs.o hs.err

/-- A scalar field. -/
theorem keeps_value (h : f.Plain) {t : Bytes × List FieldD} (ht : t ∈ f.types) {Γ : Env} (hs : DecScope f Γ.vars (.ptr (.name (camel t.1)))) {g : FieldD} (hg : g ∈ t.2)
    (hv : g.isValue = true) (hen : g.kind ≠ .enum) : Keeps (program f) (some tError) (decValue (camel g.name) g.kind (camel g.type)) Γ := by
  have hw := (h.wf.typeWf ht).fields g hg
  have hl := left_field h ht hg hs.x
  have hf := expr_field h ht hg hs.x
  obtain ⟨name, shape, k, type⟩ := g
  cases shape with
  | many => simp [FieldD.isValue] at hv
  | map kk => simp [FieldD.isValue] at hv
  | one r =>
    simp only [FieldD.isValue, decide_eq_true_eq] at hv
    simp only [fieldTy] at hl hf
    have hk := hw.kind
    simp only at hen hk
    rw [elemTy_scalar hv hen] at hl hf
    unfold decValue
    refine Keeps.append ?_ (hs.check h)
    by_cases hb : k = .bytes
    · subst hb
      refine .one (stmt_assign2 hl hs.err (t := tBytes) ?_) rfl rfl
      have harg : ∃ u, expr (program f) Γ.vars (Lib.pick vnil (xf (camel name))) = some u ∧ argsOk (program f) [tBytes] [u] = true := by
        cases lib with
        | v1 => open LibV1 in exact ⟨_, @expr_nil .v1 _ _ (@good_program .v1 _ h.wf) (DecScope.o hs), rfl⟩
        | v2 => open LibV2 in exact ⟨_, hf, args_one _⟩
      obtain ⟨u, hu, ho⟩ := harg
      exact expr_call1 (callee_decoder hs.d (m := method .bytes) (s := ⟨[tBytes], [tBytes, tError]⟩) (by cases lib <;> decide +kernel)) hu ho
    · have hst : stmt (program f) (some tError) (.assign2 (xf (camel name)) verr (.call0 (.sel vd (method k)))) Γ = some Γ :=
        stmt_assign2 hl hs.err (expr_read hs.d hv hk hen hb)
      have := Keeps.one hst rfl rfl
      cases k <;> first | contradiction | exact this

/-- An enum field; it declares a variable. -/
theorem steps_enum (h : f.Plain) {U : List Ident} {t : Bytes × List FieldD} (ht : t ∈ f.types) {Γ : Env} (hs : DecInv f U Γ (.ptr (.name (camel t.1)))) {g : FieldD}
    (hg : g ∈ t.2) {r : Bool} (hone : g.shape = .one r) (hen : g.kind = .enum) (hn : temp g ∉ Γ.block) (hu : temp g ∉ U) (hU : ∀ n ∈ g.mentions t.1, n ∈ U) :
    DecInv f U ⟨(temp g, tUint32) :: Γ.vars, temp g :: Γ.block⟩ (.ptr (.name (camel t.1))) ∧
    ∀ rest, stmt (program f) (some tError) (block (decValue (camel g.name) g.kind (camel g.type) ++ rest)) Γ =
      stmt (program f) (some tError) (block rest) ⟨(temp g, tUint32) :: Γ.vars, temp g :: Γ.block⟩ := by
  have hup : Upper (temp g) := (upper_name h.wf ht hg).append _
  have hinv : DecInv f U ⟨(temp g, tUint32) :: Γ.vars, temp g :: Γ.block⟩ (.ptr (.name (camel t.1))) := by
    refine ⟨hs.scope.cons_upper hup _, hs.free.cons hu _, ?_⟩
    rw [List.mem_cons, not_or]
    exact ⟨lower_ne hup ⟨_, _, rfl, by decide⟩, hs.size⟩
  refine ⟨hinv, ?_⟩
  intro rest
  generalize hΓ : (⟨(temp g, tUint32) :: Γ.vars, temp g :: Γ.block⟩ : Env) = Γ' at hinv ⊢
  have hl := left_field h ht hg hinv.scope.x
  have hlt : Γ'.vars.lookup (temp g) = some tUint32 := by rw [← hΓ]; exact lookup_cons_self ..
  have hn' := (h.closed t ht g hg).2 hen
  have hk2 : Keeps (program f) (some tError) ([.assign2 (.var (temp g)) verr (.call0 (.sel vd (method .enum)))] ++
      [.assign (xf (camel g.name)) (.call1 (.var (camel g.type)) (.var (temp g)))] ++ [check]) Γ' := by
    refine .append (.append (.one ?_ rfl rfl) (.one ?_ rfl rfl)) (hinv.scope.check h)
    · exact stmt_assign2 hlt hinv.scope.err (expr_readEnum hinv.scope.d)
    · refine stmt_assign hl (expr_conv h hn' (hinv.free _ (hU _ (by simp [FieldD.mentions, hone, hen]))) (expr_var hlt)) ?_
      simp only [fieldTy, hone, hen, elemTy]
      exact assignable_self _
  have hsplit : decValue (camel g.name) g.kind (camel g.type) ++ rest = .var (temp g) tUint32 :: (([.assign2 (.var (temp g)) verr (.call0 (.sel vd (method .enum)))] ++
      [.assign (xf (camel g.name)) (.call1 (.var (camel g.type)) (.var (temp g)))] ++ [check]) ++ rest) := by
    rw [hen]; rfl
  rw [hsplit, stmt_block_cons]
  have hvar : stmt (program f) (some tError) (.var (temp g) tUint32) Γ = some Γ' := by
    have h1 : typeOk (program f) Γ.vars tUint32 = true := typeOk_basic hs.scope.o (by decide +kernel)
    have h2 : temp g ≠ go!"_" := upper_ne hup ⟨_, _, rfl, by decide⟩
    simp only [stmt, h1, if_true, Env.declare, if_neg h2]
    rw [if_neg (by simpa using hn), hΓ]
  rw [hvar]
  have huse : usedIn (temp g) (block (([.assign2 (.var (temp g)) verr (.call0 (.sel vd (method .enum)))] ++
      [.assign (xf (camel g.name)) (.call1 (.var (camel g.type)) (.var (temp g)))] ++ [check]) ++ rest)) = true := by
    simp [usedIn, block, uses, newNames, mentions]
  simp only [simple, newNames, List.all_cons, huse, List.all_nil, Bool.and_self, if_true]
  exact hk2 rest

theorem steps_values (h : f.Plain) {t : Bytes × List FieldD} (ht : t ∈ f.types) (rest : List FieldD) : ∀ (l : List FieldD), (∀ g ∈ l, g ∈ t.2 ∧ g.isValue = true) →
    (l.map fun g => camel g.name).Nodup → (∀ pre g post, l = pre ++ g :: post → g.kind = .enum → temp g ∉ ((g :: post) ++ rest).flatMap (FieldD.mentions t.1)) →
    ∀ Γ, DecInv f ((l ++ rest).flatMap (FieldD.mentions t.1)) Γ (.ptr (.name (camel t.1))) → (∀ g ∈ l, temp g ∉ Γ.block) →
    ∃ Γ', DecInv f (rest.flatMap (FieldD.mentions t.1)) Γ' (.ptr (.name (camel t.1))) ∧
      ∀ rest, stmt (program f) (some tError) (block (l.flatMap (fun f => decValue (camel f.name) f.kind (camel f.type)) ++ rest)) Γ =
        stmt (program f) (some tError) (block rest) Γ' := by
  intro l
  induction l with
  | nil => intro _ _ _ Γ hs _; exact ⟨Γ, hs, fun _ => rfl⟩
  | cons g l ih =>
    intro hl hnd hfree Γ hs htm
    rw [List.map_cons, List.nodup_cons] at hnd
    obtain ⟨hg, hv⟩ := hl g (List.mem_cons_self ..)
    have hnext : ∀ {Γ}, DecInv f ((g :: l ++ rest).flatMap (FieldD.mentions t.1)) Γ (.ptr (.name (camel t.1))) →
        DecInv f ((l ++ rest).flatMap (FieldD.mentions t.1)) Γ (.ptr (.name (camel t.1))) := fun hs =>
      ⟨hs.scope, hs.free.mono fun n hn => by rw [List.cons_append, List.flatMap_cons]; exact List.mem_append_right _ hn, hs.size⟩
    have hfree' : ∀ pre g post, l = pre ++ g :: post → g.kind = .enum → temp g ∉ ((g :: post) ++ rest).flatMap (FieldD.mentions t.1) := fun pre g' post hp =>
      hfree (g :: pre) g' post (by rw [hp]; rfl)
    by_cases hen : g.kind = .enum
    · obtain ⟨r, hone⟩ : ∃ r, g.shape = .one r := by
        cases hs' : g.shape <;> simp [FieldD.isValue, hs'] at hv ⊢
      obtain ⟨h1, h2⟩ := steps_enum h ht hs hg hone hen (htm g (List.mem_cons_self ..)) (hfree [] g l rfl hen) (fun n hn => by
        rw [List.cons_append, List.flatMap_cons]; exact List.mem_append_left _ hn)
      obtain ⟨Γ', h3, h4⟩ := ih (fun g hg => hl g (List.mem_cons_of_mem _ hg)) hnd.2 hfree' _ (hnext h1) (by
        intro g' hg'
        rw [List.mem_cons, not_or]
        refine ⟨?_, htm g' (List.mem_cons_of_mem _ hg')⟩
        intro he
        have : camel g'.name = camel g.name := List.append_cancel_right he
        exact hnd.1 (this ▸ List.mem_map.mpr ⟨g', hg', rfl⟩))
      refine ⟨Γ', h3, fun rest => ?_⟩
      rw [List.flatMap_cons, List.append_assoc, h2, h4]
    · have h2 := keeps_value h ht hs.scope hg hv hen
      obtain ⟨Γ', h3, h4⟩ := ih (fun g hg => hl g (List.mem_cons_of_mem _ hg)) hnd.2 hfree' _ (hnext hs) (fun g' hg' => htm g' (List.mem_cons_of_mem _ hg'))
      refine ⟨Γ', h3, fun rest => ?_⟩
      rw [List.flatMap_cons, List.append_assoc, h2, h4]

/-! ## Slices -/

theorem slice_index {Γ : Vars} {e i : Expr} {t u : Ty} (he : expr (program f) Γ e = some (.vals [.slice t])) (hi : expr (program f) Γ i = some (.vals [u]))
    (hu : (integer (program f) u).isSome = true) : expr (program f) Γ (.index e i) = some (.vals [t]) ∧ left (program f) Γ (.index e i) = some t := by
  have : indexOf (program f) (expr (program f) Γ e) (expr (program f) Γ i) = some (.vals [t]) := by
    simp [he, hi, indexOf, underlying, isIndex, hu]
  exact ⟨by rw [expr, this], by rw [left, this]⟩

theorem comparable_uint32 {P : List Decl} (hP : Good P) : comparable P tUint32 = true := by
  rw [comparable, tUint32, underlying_basic hP uint32_keep]; cases lib <;> decide +kernel

/-- A repeated field. -/
theorem keeps_decSlice (h : f.Plain) {t : Bytes × List FieldD} (ht : t ∈ f.types) {Γ : Env} (hs : DecScope f Γ.vars (.ptr (.name (camel t.1))))
    (hsz : Γ.vars.lookup go!"sliceSize" = some tUint32) {g : FieldD} (hg : g ∈ t.2) (hm : g.shape = .many) (hun : Free (g.mentions t.1) Γ.vars) :
    Keeps (program f) (some tError) (decSlice (camel g.name) g.kind (manyTy g.kind g.type) (camel g.type)) Γ := by
  have hP := good_program (lib := lib) h.wf
  have hsup := GoRun.supported_field h ht hg
  simp only [FieldD.toField, hm, Field.GoSupported] at hsup
  have hmany : manyTy g.kind g.type = elemTy g.kind (camel g.type) := by
    unfold manyTy
    split
    · rename_i he; exact absurd he hsup.2.1
    · rfl
  have hfty : fieldTy t.1 g = .slice (elemTy g.kind (camel g.type)) := by simp only [fieldTy, hm, hmany]
  have hf := expr_field h ht hg hs.x
  have hl := left_field h ht hg hs.x
  rw [hfty] at hf hl
  have hint : (integer (program f) tUint32).isSome = true := by rw [integer_uint32 hP]; rfl
  rw [hmany]
  show Keeps (program f) (some tError) ([_] ++ ([check] ++ ([_] ++ [_]))) Γ
  refine .append (.one ?_ rfl rfl) (.append (hs.check h) (.append (.one ?_ rfl rfl) (.one ?_ rfl rfl)))
  · refine stmt_assign2 (t := tUint32) hsz hs.err ?_
    exact expr_call1 (callee_decoder hs.d (m := go!"Slice") (s := ⟨[tKind], [tUint32, tError]⟩) (by cases lib <;> decide +kernel)) (expr_kind hP hs.o g.kind) (args_one _)
  · refine stmt_if1 (Γ' := Γ.inner) ?_ (Keeps.done (.one (stmt_assign (t := .slice (elemTy g.kind (camel g.type))) (u := .vals [.slice (elemTy g.kind (camel g.type))])
      hl ?_ (assignable_self _)) rfl rfl))
    · have h1 := expr_size hP hs.o hf (.inl ⟨_, rfl⟩)
      have h2 : expr (program f) Γ.vars vsize = some (.vals [tUint32]) := expr_var hsz
      simp only [expr, h1, h2, comparison, comparable_uint32 hP, and_self, if_true]
      exact bool_ok hP
    · have h2 : expr (program f) Γ.inner.vars vsize = some (.vals [tUint32]) := expr_var hsz
      have h3 : typeOk (program f) Γ.inner.vars (.slice (elemTy g.kind (camel g.type))) = true := by
        refine typeOk_elem h hs.o hsup.1 (fun he => ?_) (fun he => absurd he hsup.2.1)
        obtain ⟨t', ht', he'⟩ := message_type h ht hg he
        exact ⟨t', ht', he', hun _ (by simp [FieldD.mentions, hm, he])⟩
      have h4 : List.lookup go!"make" Γ.inner.vars = none := hs.o _ make_keep
      simp [expr, makeOk, h2, h3, h4, isIndex, hint, underlying]
  · have hd : Γ.inner.declare go!"i" tUint32 = some ⟨(go!"i", tUint32) :: Γ.vars, [go!"i"]⟩ := by
      have : go!"i" ≠ go!"_" := by decide +kernel
      simp [Env.declare, Env.inner, this]
    refine stmt_for3 (Γ2 := _) (expr_zero hP hs.o) hint hd ?_ (by decide +kernel) (Keeps.done ?_)
    · have h1 : expr (program f) ((go!"i", tUint32) :: Γ.vars) vi = some (.vals [tUint32]) := expr_var (lookup_cons_self ..)
      have h2 : expr (program f) ((go!"i", tUint32) :: Γ.vars) vsize = some (.vals [tUint32]) := expr_var (by rw [lookup_cons_ne (by decide +kernel)]; exact hsz)
      simp only [expr, h1, h2, ordering, hint, and_self, if_true]
      exact bool_ok hP
    · generalize hΓ2 : (Env.inner _ : Env) = Γ2
      have hs2 : DecScope f Γ2.vars (.ptr (.name (camel t.1))) := by
        rw [← hΓ2]
        exact hs.cons (by decide +kernel) (by decide +kernel) (by decide +kernel) (by decide +kernel) _
      have hun2 : Free (g.mentions t.1) Γ2.vars := by
        rw [← hΓ2]
        exact hun.cons (not_mem_lower (mentions_upper h.wf ht hg) ⟨_, _, rfl, by decide⟩) _
      have hi2 : Γ2.vars.lookup go!"i" = some tUint32 := by rw [← hΓ2]; exact lookup_cons_self ..
      clear hΓ2 hs hun hsz hf hl hd Γ
      have hf := expr_field h ht hg hs2.x
      rw [hfty] at hf
      obtain ⟨hi3, hi4⟩ := slice_index hf (i := vi) (expr_var hi2) hint
      refine Keeps.append ?_ (hs2.check h)
      by_cases hmsg : g.kind = .message
      · rw [if_pos hmsg]
        obtain ⟨t', ht', he'⟩ := message_type h ht hg hmsg
        have hel : elemTy g.kind (camel g.type) = .ptr (.name (camel t'.1)) := by rw [hmsg, he']; rfl
        rw [hel] at hi3 hi4
        rw [← he']
        show Keeps (program f) (some tError) ([_] ++ [_]) Γ2
        refine .append (.one ?_ rfl rfl) (.one ?_ rfl rfl)
        · refine stmt_if1 (Γ' := Γ2.inner) (isBool_eq hP hs2.o hi3 rfl) (Keeps.done (.one (stmt_assign (t := .ptr (.name (camel t'.1))) hi4 ?_ (assignable_self _)) rfl rfl))
          exact expr_new h ht' (hun2 _ (by simp [FieldD.mentions, hm, hmsg, he']))
        · exact stmt_assign hs2.err (expr_decode h ht' (by intro p hp; cases hp) hi3 (expr_var hs2.d)) (assignable_self _)
      · rw [if_neg hmsg]
        refine .one (stmt_assign2 hi4 hs2.err ?_) rfl rfl
        rw [elemTy_scalar hmsg hsup.2.1]
        exact expr_read hs2.d hmsg hsup.1 hsup.2.1 hsup.2.2

/-! ## Messages and maps -/

theorem not_nil {P : List Decl} (hP : Good P) {Γ : Vars} (hd : Γ.lookup go!"d" = some tDecoder) : isBool P (expr P Γ (.not (.call0 (.sel vd go!"Nil")))) = true := by
  have h1 : expr P Γ (.call0 (.sel vd go!"Nil")) = some (.vals [tBool]) :=
    expr_call0 (callee_decoder hd (m := go!"Nil") (s := ⟨[], [tBool]⟩) (by cases lib <;> decide +kernel)) rfl
  have h2 : underlying P tBool = tBool := underlying_basic hP bool_keep
  have h3 : expr P Γ (.not (.call0 (.sel vd go!"Nil"))) = negation P (expr P Γ (.call0 (.sel vd go!"Nil"))) := by conv => lhs; unfold expr
  rw [h3, h1]
  simp only [negation, h2, if_true]
  exact bool_ok hP

theorem map_ne_size (a b : Ident) : go!"New" ++ (a ++ go!"Map") ≠ b ++ go!"Size" := by
  intro h
  have := congrArg List.getLast? h
  rw [← List.append_assoc, List.getLast?_append, List.getLast?_append (l := b)] at this
  have h1 : List.getLast? go!"Map" = some (.byte 112) := by decide +kernel
  have h2 : List.getLast? go!"Size" = some (.byte 101) := by decide +kernel
  rw [h1, h2] at this
  cases this

/-- A message field. -/
theorem keeps_decMessage (h : f.Plain) {t : Bytes × List FieldD} (ht : t ∈ f.types) {Γ : Env} (hs : DecScope f Γ.vars (.ptr (.name (camel t.1))))
    {g : FieldD} (hg : g ∈ t.2) {r : Bool} (hone : g.shape = .one r) (hmsg : g.kind = .message) (hun : Free (g.mentions t.1) Γ.vars) :
    Keeps (program f) (some tError) (decMessage (camel g.name) (camel g.type)) Γ := by
  have hP := good_program (lib := lib) h.wf
  obtain ⟨t', ht', he'⟩ := message_type h ht hg hmsg
  have hfty : fieldTy t.1 g = .ptr (.name (camel t'.1)) := by simp only [fieldTy, hone, hmsg, elemTy, he']
  have hf := expr_field h ht hg hs.x
  have hl := left_field h ht hg hs.x
  rw [hfty] at hf hl
  rw [← he']
  have hnew : ∀ Δ : Vars, Free (g.mentions t.1) Δ → expr (program f) Δ (.call0 (.var (go!"New" ++ camel t'.1))) = some (.vals [.ptr (.name (camel t'.1))]) := fun Δ hΔ =>
    expr_new h ht' (hΔ _ (by simp [FieldD.mentions, hone, hmsg, he']))
  have hset : Keeps (program f) (some tError) [.assign (xf (camel g.name)) (.call0 (.var (go!"New" ++ camel t'.1)))] Γ.inner :=
    .one (stmt_assign (t := .ptr (.name (camel t'.1))) hl (hnew _ hun) (assignable_self _)) rfl rfl
  have hdec : ∀ Δ : Env, Δ.vars = Γ.vars → Keeps (program f) (some tError) ([.assign verr (.call1 (.sel (xf (camel g.name)) go!"decode") vd)] ++ [check]) Δ := by
    intro Δ hΔ
    rw [← hΔ] at hs hf
    refine .append (.one ?_ rfl rfl) (DecScope.check (Γ := Δ) h hs)
    exact stmt_assign (t := tError) hs.err (expr_decode h ht' (by intro p hp; cases hp) hf (expr_var hs.d)) (assignable_self _)
  cases lib with
  | v1 => open LibV1 in exact .append (.one (stmt_if1 (Γ' := Γ.inner) (@isBool_eq .v1 _ _ hP hs.o _ _ hf rfl) hset.done) rfl rfl) (hdec Γ rfl)
  | v2 => open LibV2 in exact .one (stmt_if1 (Γ' := Γ.inner) (@not_nil .v2 _ hP _ hs.d) (Keeps.done (hset.append (hdec Γ.inner rfl)))) rfl rfl

/-- A map field. -/
theorem keeps_decMap (h : f.Plain) {t : Bytes × List FieldD} (ht : t ∈ f.types) {Γ : Env} (hs : DecScope f Γ.vars (.ptr (.name (camel t.1))))
    {g : FieldD} (hg : g ∈ t.2) {kk : PKind} (hmap : g.shape = .map kk) (hun : Free (g.mentions t.1) Γ.vars) :
    Keeps (program f) (some tError) [decMap (camel g.name) kk g.kind (mapName t.1 g)] Γ := by
  have hP := good_program (lib := lib) h.wf
  have hup : Upper (camel g.name ++ go!"Size") := (upper_name h.wf ht hg).append _
  have hfty : fieldTy t.1 g = .name (mapName t.1 g) := by simp only [fieldTy, hmap]
  have hu : underlying (program f) (.name (mapName t.1 g)) = .map (scalarTy kk) (elemTy g.kind (camel g.type)) := by
    rw [underlying, find_mapType h ht hg hmap]; rfl
  have hread : expr (program f) Γ.inner.vars (.call2 (.sel vd go!"Map") (kindConst kk) (kindConst g.kind)) = some (.vals [tUint32, tError]) :=
    expr_call2 (callee_decoder hs.d (m := go!"Map") (s := ⟨[tKind, tKind], [tUint32, tError]⟩) (by cases lib <;> decide +kernel)) (expr_kind hP hs.o kk) (expr_kind hP hs.o g.kind)
      (by simp [argsOk, assignable_self])
  have hne : camel g.name ++ go!"Size" ≠ go!"_" := upper_ne hup ⟨_, _, rfl, by decide⟩
  have hne2 : go!"err" ≠ camel g.name ++ go!"Size" := lower_ne hup ⟨_, _, rfl, by decide⟩
  have hne3 : go!"err" ≠ go!"_" := by decide +kernel
  have hdef : stmt (program f) (some tError) (.define2 (camel g.name ++ go!"Size") go!"err" (.call2 (.sel vd go!"Map") (kindConst kk) (kindConst g.kind))) Γ.inner =
      some ⟨(go!"err", tError) :: (camel g.name ++ go!"Size", tUint32) :: Γ.vars, [go!"err", camel g.name ++ go!"Size"]⟩ := by
    have hd1 : Γ.inner.declare (camel g.name ++ go!"Size") tUint32 = some ⟨(camel g.name ++ go!"Size", tUint32) :: Γ.vars, [camel g.name ++ go!"Size"]⟩ := by
      simp [Env.declare, Env.inner, hne]
    simp only [stmt, hread, hne, false_and, if_false, hd1, Option.bind_some]
    simp only [Env.declare, hne3, if_false]
    rw [if_neg]
    simpa using hne2
  refine .one (stmt_if1 (Γ' := ⟨(go!"err", tError) :: (camel g.name ++ go!"Size", tUint32) :: Γ.vars, [go!"err", camel g.name ++ go!"Size"]⟩) (not_nil hP hs.d) ?_) rfl rfl
  rw [stmt_block_cons, hdef]
  have hu1 : usedIn (camel g.name ++ go!"Size") (block [check, .assign (xf (camel g.name)) (.call1 (.var (go!"New" ++ mapName t.1 g)) (.var (camel g.name ++ go!"Size"))),
      .assign verr (.call2 (.sel (xf (camel g.name)) go!"decode") vd (.var (camel g.name ++ go!"Size"))), check]) = true := by
    simp [usedIn, block, uses, newNames, mentions, check]
  have hu2 : usedIn go!"err" (block [check, .assign (xf (camel g.name)) (.call1 (.var (go!"New" ++ mapName t.1 g)) (.var (camel g.name ++ go!"Size"))),
      .assign verr (.call2 (.sel (xf (camel g.name)) go!"decode") vd (.var (camel g.name ++ go!"Size"))), check]) = true := by
    simp [usedIn, block, uses, newNames, mentions, check, verr]
  simp only [simple, newNames, List.all_cons, List.all_nil, hu1, hu2, Bool.and_self, if_true]
  have hs2 : DecScope f ((go!"err", tError) :: (camel g.name ++ go!"Size", tUint32) :: Γ.vars) (.ptr (.name (camel t.1))) := by
    have := hs.cons_upper hup tUint32
    refine ⟨this.o.cons (by decide +kernel) _, ?_, ?_, lookup_cons_self ..⟩
    · rw [lookup_cons_ne (by decide +kernel)]; exact this.x
    · rw [lookup_cons_ne (by decide +kernel)]; exact this.d
  have hsz : List.lookup (camel g.name ++ go!"Size") ((go!"err", tError) :: (camel g.name ++ go!"Size", tUint32) :: Γ.vars) = some tUint32 := by
    rw [lookup_cons_ne hne2.symm, lookup_cons_self]
  have hnew : List.lookup (go!"New" ++ mapName t.1 g) ((go!"err", tError) :: (camel g.name ++ go!"Size", tUint32) :: Γ.vars) = none := by
    rw [lookup_cons_ne (upper_ne (upper_new _) ⟨_, _, rfl, by decide⟩), lookup_cons_ne (n := go!"New" ++ mapName t.1 g) (map_ne_size (camel (qualify t.1 g.name)) (camel g.name))]
    exact hun _ (by simp [FieldD.mentions, hmap])
  generalize hΓ2 : (⟨(go!"err", tError) :: (camel g.name ++ go!"Size", tUint32) :: Γ.vars, [go!"err", camel g.name ++ go!"Size"]⟩ : Env) = Γ2
  have hvars : (go!"err", tError) :: (camel g.name ++ go!"Size", tUint32) :: Γ.vars = Γ2.vars := by rw [← hΓ2]
  rw [hvars] at hs2 hsz hnew
  have hf := expr_field h ht hg hs2.x
  have hl := left_field h ht hg hs2.x
  rw [hfty] at hf hl
  refine Keeps.done ?_
  show Keeps (program f) (some tError) ([check] ++ ([_] ++ ([_] ++ [check]))) Γ2
  refine .append (hs2.check h) (.append (.one ?_ rfl rfl) (.append (.one ?_ rfl rfl) (hs2.check h)))
  · refine stmt_assign hl (u := .vals [.map (scalarTy kk) (elemTy g.kind (camel g.type))]) ?_ ?_
    · have hc : callee (program f) Γ2.vars (.var (go!"New" ++ mapName t.1 g)) = some (.func ⟨[tUint32], [.map (scalarTy kk) (elemTy g.kind (camel g.type))]⟩) := by
        simp only [callee, hnew, find_mapNew h ht hg hmap]
        rfl
      exact expr_call1 hc (expr_var hsz) (args_one _)
    · have : underlying (program f) (.map (scalarTy kk) (elemTy g.kind (camel g.type))) = .map (scalarTy kk) (elemTy g.kind (camel g.type)) := rfl
      simp [assignable, hu, this, named]
  · refine stmt_assign hs2.err (u := .vals [tError]) ?_ (assignable_self _)
    have hc : callee (program f) Γ2.vars (.sel (xf (camel g.name)) go!"decode") = some (.func ⟨[tDecoder, tUint32], [tError]⟩) := by
      rw [callee_sel (by intro p hp; cases hp), hf, method_own (n := mapName t.1 g) rfl (find_mapDecode h ht hg hmap) rfl]
      rfl
    exact expr_call2 hc (expr_var hs2.d) (expr_var hsz) (by simp [argsOk, assignable_self])

end

end GoCheck
