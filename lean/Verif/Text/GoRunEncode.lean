import Verif.Text.GoRunBase
import Verif.Gen.GoLayout

/-!
# Running the generated `Encode`
-/

namespace GoRun

open Utils Text GoAst GoText Gen Spec

variable {lib : Lib}

/-! ## Types -/

theorem type_ref {f : FileD} (h : f.Plain) {t : Bytes × List FieldD} (ht : t ∈ f.types) {g : FieldD} (hg : g ∈ t.2) (hk : g.kind = .message) :
    ∃ t', f.types[f.ref g.kind g.type]? = some t' ∧ t'.1 = g.type := by
  have hm := (h.closed t ht g hg).1 hk
  have hr : f.ref g.kind g.type = (f.types.map (·.1)).idxOf g.type := by rw [FileD.ref, if_neg (by rw [hk]; decide)]
  rw [hr]
  have hlt := List.idxOf_lt_length_of_mem hm
  have h1 : (f.types.map (·.1))[(f.types.map (·.1)).idxOf g.type]? = some g.type := by
    rw [List.getElem?_eq_getElem hlt]; simp
  rw [List.getElem?_map] at h1
  cases he : f.types[(f.types.map (·.1)).idxOf g.type]? with
  | none => rw [he] at h1; cases h1
  | some t' => rw [he] at h1; exact ⟨t', rfl, by simpa using h1⟩

theorem schema_fields {f : FileD} {m : Nat} {t : Bytes × List FieldD} (h : f.types[m]? = some t) : f.schema.fields m = t.2.map (FieldD.toField f) := by
  simp [FileD.schema, Schema.fields, h]

/-! ## Statements that write -/

section
variable {f : FileD} {rd : GoGen.Codec} {call : Callee}

/-- With local variables `l` the statement writes the items and changes nothing else. -/
def Writes [Lib] (f : FileD) (rd : GoGen.Codec) (call : Callee) (st : Stmt) (l : List (Ident × TV)) (is : List Item) : Prop :=
  ∀ s, s.locals = l → exec (program f) rd call st s = .ok .next { s with out := s.out ++ is }

theorem writes_nil (l : List (Ident × TV)) : Writes f rd call (block []) l [] := by
  intro s _
  rw [exec_block_nil]; simp

theorem writes_append {a b : List Stmt} {l : List (Ident × TV)} {i j : List Item} (ha : Writes f rd call (block a) l i) (hb : Writes f rd call (block b) l j) :
    Writes f rd call (block (a ++ b)) l (i ++ j) := by
  intro s hs
  rw [exec_block_append, ha s hs]
  show exec _ rd call (block b) _ = _
  rw [hb { s with out := s.out ++ i } hs]
  simp

theorem writes_one {st : Stmt} {l : List (Ident × TV)} {i : List Item} (h : Writes f rd call st l i) : Writes f rd call (block [st]) l i := by
  intro s hs
  rw [exec_block_cons, h s hs]
  exact exec_block_nil _

theorem writes_expr {e : Expr} {l : List (Ident × TV)} {i : List Item}
    (h : ∀ s, s.locals = l → ∃ r, eval (program f) rd call e s = .ok r { s with out := s.out ++ i }) : Writes f rd call (.expr e) l i := by
  intro s hs
  obtain ⟨r, hr⟩ := h s hs
  rw [exec, bind_ok hr]; rfl

/-! ## Expressions -/

/-- Local variables in `Encode`. -/
structure EncEnv [Lib] (f : FileD) (l : List (Ident × TV)) : Prop where
  env : Env f l
  b : l.lookup go!"b" = some ⟨tBuffer, .buffer⟩

theorem not_reserved_declared (h : f.Plain) {n : Ident} (hn : Lower n) (hr : n ∉ reserved) :
    n ∉ reserved ∧ n ∉ (program f).flatMap Decl.declared := ⟨hr, not_declared h.wf hn⟩

theorem eval_encoder {l : List (Ident × TV)} (he : EncEnv f l) {s : St} (hs : s.locals = l) :
    eval (program f) rd call encoder s = .ok [⟨tEncoder, .encoder⟩] s := by
  subst hs
  have hp : s.locals.lookup go!"polyglot" = none := he.env _ (.inl (by simp [reserved]))
  refine eval_call1 (t := .lib go!"Encoder") (r := ([⟨tEncoder, .encoder⟩], none)) ?_ (eval_local he.b) ?_ (storeReceiver_none _ _)
  · show target _ _ _ (.sel (.var go!"polyglot") go!"Encoder") s = _
    rw [target_sel]
    simp [isPackage, hp]
  · simp [apply]

/-- A method of the encoder that `e` evaluates to, with one argument. -/
theorem eval_encode1 {e a : Expr} {m : Ident} {s s1 : St} {v : TV} {i : Item} (hp : ∀ n, e ≠ .var n)
    (he : eval (program f) rd call e s = .ok [⟨tEncoder, .encoder⟩] s1) (ha : eval (program f) rd call a s1 = .ok [v] s1) (hi : encoderCall m [v] = some i) :
    eval (program f) rd call (.call1 (.sel e m) a) s = .ok [⟨tEncoder, .encoder⟩] { s1 with out := s1.out ++ [i] } :=
  eval_call1 (r := ([⟨tEncoder, .encoder⟩], none)) (target_method (isPackage_false (hp _)) he) ha (apply_encoder hi _) (storeReceiver_none _ _)

/-- `uint32(e)` and `len(e)` -/
theorem eval_builtin (h : f.Plain) {l : List (Ident × TV)} (hl : Base l) {s : St} (hs : s.locals = l) {b : Ident} {e : Expr} {v w : TV}
    (hb : b = go!"uint32" ∨ b = go!"len") (he : eval (program f) rd call e s = .ok [v] s) (hw : builtin b [v] = some w) :
    eval (program f) rd call (.call1 (.var b) e) s = .ok [w] s := by
  subst hs
  have hr : b ∈ reserved := by rcases hb with rfl | rfl <;> simp [reserved]
  have hlow : Lower b := by rcases hb with rfl | rfl <;> exact ⟨_, _, rfl, by decide⟩
  have hd := not_declared (lib := lib) h.wf hlow
  refine eval_call1 (t := .name b) (r := ([w], none)) (target_name (hl b hr)) he ?_ (storeReceiver_none _ _)
  rw [apply, findFunc_none hd, findType_none hd]
  simp only [hw, bind_apply, need_some, pure_apply]

/-! ## Scalars -/

theorem lookup_method {k : PKind} (hk : GoGen.IsScalar k) (he : k ≠ .enum) : scalarMethods.lookup (method k) = some (scalarTy k) := by
  obtain ⟨h1, h2⟩ := hk
  cases k <;> first | exact absurd rfl he | exact absurd rfl h1 | exact absurd rfl h2 | decide

theorem encoderCall_scalar {k : PKind} {x : Scalar} (h : x.OfKind k) (he : k ≠ .enum) : encoderCall (method k) [⟨scalarTy k, .data (.scalar x)⟩] = some x.item := by
  simp only [encoderCall, lookup_method (GoGen.ofKind_scalar h) he, if_true]
  cases k <;> cases x <;> simp only [Scalar.OfKind] at h <;> first | rfl | exact absurd rfl he

theorem encoderCall_enum (v : BitVec 32) : encoderCall (method .enum) [⟨tUint32, .data (.scalar (.uint32 v))⟩] = some (Scalar.enum v).item :=
  encoderCall_scalar (k := .uint32) (x := .uint32 v) trivial (by decide)

/-- `encoder.Method(e)`, with a conversion for enums. -/
theorem eval_scalar (h : f.Plain) {l : List (Ident × TV)} (hl : Base l) {k : PKind} {x : Scalar} {ty : Ident} (hx : x.OfKind k) {s s1 : St} (hs : s1.locals = l)
    {e a : Expr} (hp : ∀ n, e ≠ .var n) (he : eval (program f) rd call e s = .ok [⟨tEncoder, .encoder⟩] s1)
    (ha : eval (program f) rd call a s1 = .ok [⟨elemTy k ty, .data (.scalar x)⟩] s1) :
    eval (program f) rd call (.call1 (.sel e (method k)) (if k = .enum then uint32 a else a)) s =
      .ok [⟨tEncoder, .encoder⟩] { s1 with out := s1.out ++ [x.item] } := by
  by_cases hk : k = .enum
  · subst hk
    obtain ⟨v, rfl⟩ := GoGen.enum_cases hx
    rw [if_pos rfl]
    refine eval_encode1 hp he (eval_builtin h hl hs (.inl rfl) ha ?_) (encoderCall_enum v)
    simp [builtin]
  · rw [if_neg hk]
    have hm : elemTy k ty = scalarTy k := by cases k <;> simp_all [elemTy, Scalar.OfKind]
    rw [hm] at ha
    exact eval_encode1 hp he ha (encoderCall_scalar hx hk)

theorem eval_kindConst {l : List (Ident × TV)} (hl : Base l) {s : St} (hs : s.locals = l) {k : PKind} (hk : k ≠ .group) :
    eval (program f) rd call (kindConst k) s = .ok [⟨tKind, .kind k.announced⟩] s := by
  subst hs
  have hp : s.locals.lookup go!"polyglot" = none := hl _ (by simp [reserved])
  cases k <;> first | exact absurd rfl hk | exact eval_kind hp (by decide)

/-! ## Calls of `Encode` -/

/-- The expression is a variable, or a field of one, of this value: reading it and assigning the value to it change nothing. -/
structure Place [Lib] (f : FileD) (rd : GoGen.Codec) (call : Callee) (l : List (Ident × TV)) (e : Expr) (v : TV) : Prop where
  notPackage : e ≠ .var go!"polyglot"
  reads : ∀ s : St, s.locals = l → eval (program f) rd call e s = .ok [v] s
  stores : ∀ s : St, s.locals = l → store (program f) rd call e v s = .ok () s

theorem assignTo_same (P : List Decl) (v : TV) : assignTo P v.ty v = some v.val := by simp [assignTo]

theorem place_var {l : List (Ident × TV)} {n : Ident} {v : TV} (hn : n ≠ go!"polyglot") (h : l.lookup n = some v) : Place f rd call l (.var n) v where
  notPackage := by simpa using hn
  reads := by rintro s rfl; exact eval_local h
  stores := by
    rintro s rfl
    rw [store_var, bind_apply]
    simp only [GoRun.get, h, assignTo_same, bind_apply, need_some, set]
    rw [setLocal_self h]

theorem place_field (h : f.Plain) {t : Bytes × List FieldD} (ht : t ∈ f.types) {l : List (Ident × TV)} {vs : List V}
    (hx : l.lookup go!"x" = some ⟨.ptr (.name (camel t.1)), .data (.msg vs)⟩) {i : Nat} {g : FieldD} {v : V} (hg : t.2[i]? = some g) (hv : vs[i]? = some v) :
    Place f rd call l (xf (camel g.name)) ⟨fieldTy t.1 g, .data v⟩ where
  notPackage := by simp [xf]
  reads := by
    rintro s rfl
    refine eval_sel (isPackage_false (by simp [vx])) (eval_local hx) ?_
    have hfi := fieldIndex_eq (name := fun g : FieldD => camel g.name) (ty := fieldTy t.1) (h.fields t ht) hg
    simp only [field, structOf, find_struct h ht, hfi, bind_apply, need_some, hv, pure_apply]
  stores := by
    rintro s rfl
    have hfi := fieldIndex_eq (name := fun g : FieldD => camel g.name) (ty := fieldTy t.1) (h.fields t ht) hg
    have hset : vs.set i v = vs := by
      obtain ⟨hi, rfl⟩ := List.getElem?_eq_some_iff.mp hv
      simp
    rw [xf, vx, store_sel, bind_ok (one_ok (eval_local hx)), bind_apply]
    have : setField (program f) ⟨.ptr (.name (camel t.1)), .data (.msg vs)⟩ (camel g.name) ⟨fieldTy t.1 g, .data v⟩ s =
        .ok ⟨.ptr (.name (camel t.1)), .data (.msg vs)⟩ s := by
      simp only [setField, structOf, find_struct h ht, hfi, bind_apply, need_some]
      have ha := assignTo_same (program f) ⟨fieldTy t.1 g, .data v⟩
      simp only [ha, need_some, pure_apply, hset]
    rw [this]
    exact (place_var (n := go!"x") (by decide) hx).stores s rfl

/-- `e.Encode(b)` -/
theorem writes_encode {l : List (Ident × TV)} (he : EncEnv f l) {e : Expr} {ty : Ty} {v : V} {tn : Ident} {fn : Func} {is : List Item}
    (hpl : Place f rd call l e ⟨ty, .data v⟩) (hb : base ty = some tn) (hf : findMethod (program f) tn go!"Encode" = some fn)
    (hrecv : fn.recv.map (·.2) = some ty) (hpar : fn.params = [(go!"b", tBuffer)])
    (hcall : ∀ s, s.locals = l → call fn (some (.data v)) [.buffer] s = .ok (some (.data v), []) { s with out := s.out ++ is }) :
    Writes f rd call (.expr (.call1 (.sel e go!"Encode") vb)) l is := by
  refine writes_expr fun s hs => ⟨[], ?_⟩
  subst hs
  refine eval_call1 (s3 := { s with out := s.out ++ is }) (r := ([], some ⟨ty, .data v⟩)) (target_method (isPackage_false hpl.notPackage) (hpl.reads s rfl))
    (eval_local he.b) ?_ ?_
  · have harg : arguments (program f) fn.params [⟨tBuffer, .buffer⟩] = some [.buffer] := by
      rw [hpar]; simp [arguments, assignTo]
    simp only [apply, hb, hf, hrecv, harg, bind_apply, need_some, hcall s rfl, if_true, pure_apply]
  · rw [storeReceiver_sel]
    exact hpl.stores _ rfl

/-- The callee encodes messages of depth up to `n`. -/
def EncCallee [Lib] (f : FileD) (call : Callee) (n : Nat) : Prop :=
  ∀ m t x, f.types[m]? = some t → x.OfField f.schema (.one .message m false) → x.depth ≤ n → ∀ s,
    call (encodeDecl t.1 t.2).fn (some (.data x)) [.buffer] s = .ok (some (.data x), []) { s with out := s.out ++ f.schema.layout m x }

theorem items_card (S : Schema) (k : PKind) (r : Nat) (c : Bool) (v : V) : v.items S (.one k r c) = v.items S (.one k r false) := by
  cases v <;> simp [V.items]

theorem ofField_card {S : Schema} {k : PKind} {r : Nat} {c : Bool} {v : V} (h : v.OfField S (.one k r c)) : v.OfField S (.one k r false) := by
  cases v <;> first | exact h | (simp [V.OfField] at h ⊢; done) | simpa [V.OfField] using h

/-- Encode a message: `e` is a place. -/
theorem writes_message (h : f.Plain) {l : List (Ident × TV)} (he : EncEnv f l) {n : Nat} (hc : EncCallee f call n) {t : Bytes × List FieldD} (ht : t ∈ f.types)
    {g : FieldD} (hg : g ∈ t.2) (hk : g.kind = .message) {e : Expr} {v : V} (hv : v.OfField f.schema (.one .message (f.ref g.kind g.type) false))
    (hd : v.depth ≤ n) (hpl : Place f rd call l e ⟨.ptr (.name (camel g.type)), .data v⟩) :
    Writes f rd call (.expr (.call1 (.sel e go!"Encode") vb)) l (v.items f.schema (.one .message (f.ref g.kind g.type) false)) := by
  obtain ⟨t', ht', hn⟩ := type_ref h ht hg hk
  have hmem := List.mem_of_getElem? ht'
  refine writes_encode he hpl (tn := camel t'.1) (by rw [hn]; rfl) (find_encode h hmem) (by rw [hn]; rfl) rfl ?_
  intro s _
  exact hc _ t' v ht' hv hd s

/-! ## Loops -/

/-- Rounds that each write something. -/
theorem rounds_write {body : Stmt} {l : List (Ident × TV)} {α : Type} {vars : α → List (Ident × TV)} {items : α → List Item}
    : ∀ (as : List α), (∀ a ∈ as, ∀ s : St, s.locals = l → inBlock (do declareAll (vars a); exec (program f) rd call body) s =
        .ok .next { s with out := s.out ++ items a }) → ∀ s : St, s.locals = l →
      rounds (exec (program f) rd call body) (as.map vars) s = .ok .next { s with out := s.out ++ as.flatMap items } := by
  intro as
  induction as with
  | nil => intro _ s _; simp [rounds, pure_apply]
  | cons a as ih =>
    intro h s hs
    rw [List.map_cons, rounds, bind_ok (h a (List.mem_cons_self ..) s hs)]
    show rounds _ _ _ = _
    rw [ih (fun b hb => h b (List.mem_cons_of_mem _ hb)) { s with out := s.out ++ items a } hs]
    simp

theorem round_one {body : Stmt} {l : List (Ident × TV)} {n : Ident} {v : TV} {is : List Item} (hn : n ≠ go!"_") (h : Writes f rd call body ((n, v) :: l) is)
    (s : St) (hs : s.locals = l) : inBlock (do declareAll [(n, v)]; exec (program f) rd call body) s = .ok .next { s with out := s.out ++ is } := by
  have h1 : (do declareAll [(n, v)]; exec (program f) rd call body : M Flow) s =
      exec (program f) rd call body { s with locals := (n, v) :: s.locals } := by
    simp only [declareAll, bind_apply, declare, hn, if_false, pure_apply]
  unfold inBlock
  rw [h1, h _ (by rw [hs])]
  simp

theorem round_two {body : Stmt} {l : List (Ident × TV)} {n m : Ident} {v w : TV} {is : List Item} (hn : n ≠ go!"_") (hm : m ≠ go!"_")
    (h : Writes f rd call body ((m, w) :: (n, v) :: l) is)
    (s : St) (hs : s.locals = l) : inBlock (do declareAll [(n, v), (m, w)]; exec (program f) rd call body) s =
      .ok .next { s with out := s.out ++ is } := by
  have h1 : (do declareAll [(n, v), (m, w)]; exec (program f) rd call body : M Flow) s =
      exec (program f) rd call body { s with locals := (m, w) :: (n, v) :: s.locals } := by
    simp only [declareAll, bind_apply, declare, hn, hm, if_false, pure_apply]
  unfold inBlock
  rw [h1, h _ (by rw [hs])]
  have : s.locals.length + 1 + 1 - s.locals.length = 2 := by omega
  simp [this]

theorem itemsE_flatMap (S : Schema) (g : Field) : ∀ vs : List V, itemsE S g vs = vs.flatMap fun v => v.items S g
  | [] => rfl
  | v :: vs => by rw [itemsE, itemsE_flatMap S g vs]; rfl

theorem itemsM_flatMap (S : Schema) (g : Field) : ∀ (ks : List Scalar) (vs : List V), itemsM S g ks vs = (ks.zip vs).flatMap fun p => p.1.item :: p.2.items S g
  | [], _ => by simp [itemsM]
  | _ :: _, [] => by simp [itemsM]
  | k :: ks, v :: vs => by rw [itemsM, itemsM_flatMap S g ks vs]; simp

/-- Variables of loops hide nothing. -/
theorem EncEnv.cons (h : f.Plain) {l : List (Ident × TV)} (he : EncEnv f l) {n : Ident} (hn : n = go!"v" ∨ n = go!"k") (v : TV) : EncEnv f ((n, v) :: l) := by
  rcases hn with rfl | rfl
  · exact ⟨he.env.cons (by decide) (not_declared h.wf ⟨_, _, rfl, by decide⟩) v, by rw [lookup_cons_ne (by decide)]; exact he.b⟩
  · exact ⟨he.env.cons (by decide) (not_declared h.wf ⟨_, _, rfl, by decide⟩) v, by rw [lookup_cons_ne (by decide)]; exact he.b⟩

/-- A repeated field. -/
theorem writes_slice (h : f.Plain) {l : List (Ident × TV)} (he : EncEnv f l) {n : Nat} (hc : EncCallee f call n) {t : Bytes × List FieldD} (ht : t ∈ f.types)
    {vs : List V} (hx : l.lookup go!"x" = some ⟨.ptr (.name (camel t.1)), .data (.msg vs)⟩) {i : Nat} {g : FieldD} {v : V} (hg : t.2[i]? = some g)
    (hv : vs[i]? = some v) (hs : g.shape = .many) (hk : g.kind ≠ .group) (hke : g.kind ≠ .enum)
    (hty : v.OfField f.schema (g.toField f)) (hd : v.depth ≤ n) :
    Writes f rd call (block (encSlice (camel g.name) g.kind)) l (v.items f.schema (g.toField f)) := by
  have hto : g.toField f = .many g.kind (f.ref g.kind g.type) := by simp [FieldD.toField, hs]
  rw [hto] at hty ⊢
  cases v with
  | slice ws =>
    simp only [V.OfField] at hty
    rw [V.items, itemsE_flatMap]
    have hfty : fieldTy t.1 g = .slice (elemTy g.kind (camel g.type)) := by
      simp only [fieldTy, hs, manyTy]
    have hpl := place_field (rd := rd) (call := call) h ht hx hg hv
    rw [hfty] at hpl
    rw [encSlice, show ∀ a : Stmt, ∀ b, [a, b] = [a] ++ [b] from fun _ _ => rfl]
    refine writes_append (i := [_]) (writes_one (writes_expr fun s hs' => ⟨[⟨tEncoder, .encoder⟩], ?_⟩)) (writes_one ?_)
    · refine eval_call2 (r := ([⟨tEncoder, .encoder⟩], none)) (v := ⟨tUint32, .data (.scalar (.uint32 (BitVec.ofNat 32 ws.length)))⟩)
        (target_method (isPackage_false (by simp [encoder])) (eval_encoder he hs'))
        (eval_builtin h he.env.base hs' (.inl rfl) (v := ⟨tInt, .int ws.length⟩) (eval_builtin h he.env.base hs' (.inr rfl) (hpl.reads s hs') ?_) ?_)
        (eval_kindConst he.env.base hs' hk) (apply_encoder ?_ s) (storeReceiver_none _ _)
      · simp [builtin]
      · simp [builtin]
      · simp [encoderCall]
    · intro s hs'
      rw [exec, bind_ok (one_ok (hpl.reads s hs'))]
      rw [show ranged (program f) go!"_" go!"v" ⟨.slice (elemTy g.kind (camel g.type)), .data (.slice ws)⟩ =
        some (ws.map fun x => [(go!"v", ⟨elemTy g.kind (camel g.type), .data x⟩)]) by simp [ranged]]
      rw [bind_ok (need_some _ s)]
      refine rounds_write ws ?_ s hs'
      intro w hw
      refine round_one (by decide) (writes_one ?_)
      have hwt := (GoGen.ofElems_iff ..).mp hty.2 w hw
      have hwd : w.depth ≤ n := Nat.le_trans (depth_le_depths hw) (by simpa [V.depth] using hd)
      have he' := he.cons h (n := go!"v") (.inl rfl) ⟨elemTy g.kind (camel g.type), .data w⟩
      by_cases hkm : g.kind = .message
      · rw [if_pos hkm]
        rw [hkm] at hwt
        have := writes_message (rd := rd) h he' hc ht (List.mem_of_getElem? hg) hkm (v := w) (e := vv) (by rw [hkm]; exact hwt) hwd
          (place_var (by decide) (by rw [lookup_cons_self, hkm]; rfl))
        rw [hkm] at this ⊢
        exact this
      · rw [if_neg hkm]
        obtain ⟨x, rfl⟩ : ∃ x, w = .scalar x := by
          cases w <;> simp_all [V.OfField]
        simp only [V.OfField] at hwt
        refine writes_expr fun s' hs'' => ⟨[⟨tEncoder, .encoder⟩], ?_⟩
        have := eval_scalar (rd := rd) (call := call) h he'.env.base (a := vv) (ty := camel g.type) hwt hs'' (e := encoder) (by simp [encoder]) (eval_encoder he' hs'')
          (eval_local (by rw [hs'', lookup_cons_self]))
        rw [if_neg hke] at this
        exact this
  | _ => simp [V.OfField] at hty

end

end GoRun
