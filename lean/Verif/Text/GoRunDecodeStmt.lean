import Verif.Text.GoRunDecode

/-!
# Running the generated `Decode`: scalars, enums, calls
-/

namespace GoRun

open Utils Text GoAst GoText Gen Spec
open GoGen (AnyLaw)
open GoV2 (Req)

variable {lib : Lib}

section
variable {f : FileD} {rd : GoGen.Codec} {call : Callee} {α β : Type} {R : Recv}

/-! ## Scalars -/

/-- The method for a scalar of kind `k`. -/
structure ScalarRead (k : PKind) (m : GoGen.Method) (t : GoGen.GoType) (z : V) : Prop where
  lut : GoGen.decodeLUT k = some m
  find : ∀ r, GoGen.FindElem k r false = some t
  type : m.type = t
  req : k ≠ .bytes → request (method k) [] = some (m.req [], scalarTy k)
  bytes : m = .Bytes ↔ k = .bytes
  zero : GoRun.zero [] (scalarTy k) = some (.data z)
  notNil : method k ≠ go!"Nil"
  typed : ∀ S r c, V.OfField S (.one k r c) z

theorem scalarRead {k : PKind} (hk : GoGen.IsScalar k) (he : k ≠ .enum) : ∃ m t z, ScalarRead k m t z := by
  obtain ⟨h1, h2⟩ := hk
  cases k <;> first | exact absurd rfl he | exact absurd rfl h1 | exact absurd rfl h2 |
    exact ⟨_, _, _, ⟨rfl, fun _ => rfl, rfl, fun _ => by first | rfl | (rename_i h; exact absurd rfl h), by decide, rfl, by decide, fun _ _ _ => by simp [V.OfField, Scalar.OfKind]⟩⟩

theorem returned_ofItem {i : Item} {v : V} {x : Scalar} (h : returned i = some v) (hx : GoGen.ofItem i = some x) : v = .scalar x := by
  cases i <;> simp [returned, GoGen.ofItem] at h hx <;> simp [← h, ← hx]

/-- What the scalar methods return. -/
theorem returned_some (hl : AnyLaw ver rd) {q : Req} (hq : q ≠ .nil ∧ q ≠ .error ∧ q ≠ .uint8 ∧ q ≠ .uint16)
    (hb : (ver : GoGen.Version).bytesScratch = true ∨ ∀ s, q = .bytes s → s = []) (b r : Bytes) (i : Item) (h : rd q b = .ok (r, .value i)) :
    ∃ v, returned i = some v := by
  have := (hl.value hb h).1
  cases this <;> first | exact ⟨_, rfl⟩ | simp at hq

theorem req_ok {k : PKind} {m : GoGen.Method} {t : GoGen.GoType} {z : V} (h : ScalarRead k m t z) (b : Bytes) :
    m.req b ≠ .nil ∧ m.req b ≠ .error ∧ m.req b ≠ .uint8 ∧ m.req b ≠ .uint16 := by
  have := h.lut
  cases k <;> simp [GoGen.decodeLUT] at this <;> subst this <;> simp [GoGen.Method.req]

theorem req_nil (m : GoGen.Method) : ∀ s, m.req [] = .bytes s → s = [] := by
  intro s hs
  cases m <;> simp [GoGen.Method.req] at hs
  exact hs

/-- `e, err = d.Method()` -/
theorem tries_scalar (hl : AnyLaw ver rd) {root : Ident} {e : Expr} {k : PKind} {m : GoGen.Method} {t : GoGen.GoType} {z : V} (hk : ScalarRead k m t z) (hb : k ≠ .bytes)
    {upd : V → List (Ident × TV)} (hc : Cell f rd call root e (scalarTy k) upd) (h1 : root ≠ go!"d") (h2 : root ≠ go!"err") {w : V} (hE : DecEnv (upd w)) (hR : R.In (upd z)) :
    Tries R f rd call [.assign2 e verr (.call0 (.sel vd (method k)))] (upd w) (GoGen.assign rd m [] t) (fun s l' => l' = upd (.scalar s)) := by
  unfold GoGen.assign
  rw [if_pos hk.type]
  refine (tries_read hc h1 h2 hE hk.notNil (hk.req hb) hk.zero (fun s hs => eval_d0 (by rw [hs]; exact hE.d) _) (returned_some hl (req_ok hk []) (.inr (req_nil m))) hR).next ?_
  rintro i l' ⟨v, hv, rfl⟩
  cases hi : GoGen.ofItem i with
  | none => exact .inl rfl
  | some x => exact .inr ⟨x, rfl, by rw [returned_ofItem hv hi]⟩

/-- `e, err = d.Bytes(e)`, in v1 `e, err = d.Bytes(nil)` -/
theorem tries_bytes (h : f.Plain) (hl : AnyLaw ver rd) {root : Ident} {e : Expr} {upd : V → List (Ident × TV)} (hc : Cell f rd call root e tBytes upd) (h1 : root ≠ go!"d")
    (h2 : root ≠ go!"err") {b : Bytes} (hE : DecEnv (upd (.scalar (.bytes b)))) (hR : R.In (upd (.scalar (.bytes [])))) :
    Tries R f rd call [.assign2 e verr (.call1 (.sel vd (method .bytes)) (Lib.pick vnil e))] (upd (.scalar (.bytes b)))
      (GoGen.assign rd .Bytes (if (ver : GoGen.Version).bytesScratch then b else []) .bytes) (fun s l' => l' = upd (.scalar s)) := by
  unfold GoGen.assign
  rw [if_pos (show GoGen.Method.Bytes.type = .bytes from rfl)]
  have hev : ∃ a, request (method .bytes) [a] = some (.bytes (if (ver : GoGen.Version).bytesScratch then b else []), tBytes) ∧
      ∀ s : St, s.locals = upd (.scalar (.bytes b)) → eval (program f) rd call (Lib.pick vnil e) s = .ok [a] s := by
    cases lib
    · exact ⟨⟨tNil, .nil⟩, rfl, fun s hs => @nil_env .v1 _ _ _ _ (@DecEnv.base .v1 _ hE) h s hs⟩
    · exact ⟨⟨tBytes, .data (.scalar (.bytes b))⟩, rfl, fun s hs => @Cell.reads .v2 _ _ _ _ _ _ _ hc _ s hs⟩
  obtain ⟨a, hreq, hev⟩ := hev
  have hs : (ver : GoGen.Version).bytesScratch = true ∨ ∀ s, Req.bytes (if (ver : GoGen.Version).bytesScratch then b else []) = .bytes s → s = [] := by
    cases hv : (ver : GoGen.Version).bytesScratch
    · exact .inr fun s hs => by cases hs; rfl
    · exact .inl rfl
  refine (tries_read hc h1 h2 hE (m := method .bytes) (args := [a]) (z := .scalar (.bytes [])) (by decide) hreq ?_
    (fun s hs => eval_d1 (by rw [hs]; exact hE.d) _ (hev s hs)) (returned_some hl (by simp) hs) hR).next ?_
  · simp [zero, tBytes]
  · rintro i l' ⟨v, hv, rfl⟩
    cases hi : GoGen.ofItem i with
    | none => exact .inl rfl
    | some x => exact .inr ⟨x, rfl, by rw [returned_ofItem hv hi]⟩

/-! ## Enums -/

/-- `T(e)` -/
theorem eval_convert (h : f.Plain) {s : St} {n : Bytes} (hn : n ∈ f.enumNames) (he : s.locals.lookup (camel n) = none) {e : Expr} {v : BitVec 32}
    (hv : eval (program f) rd call e s = .ok [⟨tUint32, .data (.scalar (.uint32 v))⟩] s) :
    eval (program f) rd call (.call1 (.var (camel n)) e) s = .ok [⟨.name (camel n), .data (.scalar (.enum v))⟩] s := by
  have ht := find_enum h hn
  refine eval_call1 (t := .name (camel n)) (r := ([⟨.name (camel n), .data (.scalar (.enum v))⟩], none)) (target_name he) hv ?_ (storeReceiver_none _ _)
  have hc : convert (program f) (camel n) [⟨tUint32, .data (.scalar (.uint32 v))⟩] = some ⟨.name (camel n), .data (.scalar (.enum v))⟩ := by
    simp only [convert, ht.1]
    rfl
  rw [apply, ht.2, ht.1]
  simp only [hc, bind_apply, need_some, pure_apply]

/-- Assigning to `e` with local variables `l'` leads to `dest l' v`. -/
def Dest [Lib] (f : FileD) (rd : GoGen.Codec) (call : Callee) (root : Ident) (e : Expr) (t : Ty) (dest : List (Ident × TV) → V → List (Ident × TV)) (l' : List (Ident × TV)) : Prop :=
  ∀ v, (∀ s : St, s.locals = l' → store (program f) rd call e ⟨t, .data v⟩ s = .ok () { s with locals := dest l' v }) ∧
    (dest l' v).map sig = l'.map sig ∧ ∀ n, n ≠ root → (dest l' v).lookup n = l'.lookup n

/-- `tmp, err = d.Uint32(); e = T(tmp)` -/
theorem tries_enum (h : f.Plain) (hl : AnyLaw ver rd) {l : List (Ident × TV)} (hE : DecEnv l) {tmp : Ident} {y : V} (ht : l.lookup tmp = some ⟨tUint32, .data y⟩)
    (h0 : tmp ≠ go!"polyglot") (h1 : tmp ≠ go!"d") (h2 : tmp ≠ go!"err") {n : Bytes} (hn : n ∈ f.enumNames) (hN : l.lookup (camel n) = none) {e : Expr} {root : Ident} (h3 : root ≠ go!"d") (h4 : root ≠ go!"err")
    {dest : List (Ident × TV) → V → List (Ident × TV)}
    (hdest : ∀ l', l'.map sig = l.map sig → (∀ n, n ≠ tmp → n ≠ go!"err" → l'.lookup n = l.lookup n) → Dest f rd call root e (.name (camel n)) dest l')
    (hR : ∀ l', l'.map sig = l.map sig → (∀ n, n ≠ tmp → n ≠ go!"err" → l'.lookup n = l.lookup n) → R.In (dest l' (.scalar (.enum 0)))) :
    Tries R f rd call [.assign2 (.var tmp) verr (.call0 (.sel vd (method .enum))), .assign e (.call1 (.var (camel n)) (.var tmp))] l (GoGen.assignEnum rd .Uint32)
      (fun s l' => ∃ l1, l1.map sig = l.map sig ∧ (∀ n, n ≠ tmp → l1.lookup n = l.lookup n) ∧ l' = dest l1 (.scalar s)) := by
  have hc := cell_var (lib := lib) (f := f) (rd := rd) (call := call) h0 ht
  have hself : l = setLocal tmp ⟨tUint32, .data y⟩ l := (setLocal_self ht).symm
  have hsig : ∀ w, (setLocal tmp ⟨tUint32, .data w⟩ l).map sig = l.map sig := fun w => sig_setLocal ht rfl
  have hoth : ∀ w n, n ≠ tmp → (setLocal tmp ⟨tUint32, .data w⟩ l).lookup n = l.lookup n := fun w n hn => lookup_setLocal_ne _ hn _
  -- the assignment
  have step : ∀ (v : BitVec 32) (s : St), s.locals.map sig = l.map sig → (∀ n, n ≠ tmp → n ≠ go!"err" → s.locals.lookup n = l.lookup n) →
      s.locals.lookup tmp = some ⟨tUint32, .data (.scalar (.uint32 v))⟩ →
      exec (program f) rd call (block [.assign e (.call1 (.var (camel n)) (.var tmp))]) s = .ok .next { s with locals := dest s.locals (.scalar (.enum v)) } := by
    intro v s hs ho hv
    rw [exec_block_cons, exec, bind_ok (one_ok (eval_convert h hn (none_sig hs hN) (eval_local hv))), bind_ok (((hdest s.locals hs ho) _).1 s rfl)]
    exact exec_block_nil _
  intro s hs
  subst hs
  unfold GoGen.assignEnum
  rw [if_pos (show GoGen.Method.Uint32.type = .uint32 from rfl), dbind_apply]
  have hr := exec_read hc h1 h2 (w := y) (by rw [← hself]; exact hE) (m := method .enum) (args := []) (q := .uint32) (z := .scalar (.uint32 0)) (by decide) rfl rfl hself
    (eval_d0 hE.d _) (fun r i hi => returned_some hl (by simp) (.inr (by simp)) _ r i hi)
  rw [show (GoGen.Method.Uint32.req []) = Req.uint32 from rfl]
  rw [exec_block_cons]
  cases hg : GoGen.read rd .uint32 s.inp with
  | ok r i =>
    rw [hg] at hr
    obtain ⟨v, hv, hex⟩ := hr
    have hm : ∃ u, i = .uint32 u := by
      unfold GoGen.read at hg
      cases hrd : rd .uint32 s.inp with
      | panic => rw [hrd] at hg; cases hg
      | ok p =>
        obtain ⟨r', o⟩ := p
        rw [hrd] at hg
        cases o with
        | value i' =>
          cases hg
          have := (hl.value (.inr (by simp)) hrd).1
          cases this
          exact ⟨_, rfl⟩
        | _ => cases hg
    obtain ⟨u, rfl⟩ := hm
    cases hv
    have hst := step u ⟨setLocal tmp ⟨tUint32, .data (.scalar (.uint32 u))⟩ s.locals, s.out, r⟩ (hsig _) (fun n hn _ => hoth _ n hn) (lookup_setLocal_self _ ht)
    have hd := (hdest (setLocal tmp ⟨tUint32, .data (.scalar (.uint32 u))⟩ s.locals) (hsig _) (fun n hn _ => hoth _ n hn)) (.scalar (.enum u))
    refine ⟨_, ⟨setLocal tmp ⟨tUint32, .data (.scalar (.uint32 u))⟩ s.locals, hsig _, hoth _, rfl⟩, .of_eq (hd.2.1.trans (hsig _)), ⟨?_, ?_, ?_⟩, ?_⟩
    · exact base_sig (hd.2.1.trans (hsig _)) hE.base
    · rw [hd.2.2 _ h3.symm, hoth _ _ h1.symm]; exact hE.d
    · rw [hd.2.2 _ h4.symm, hoth _ _ h2.symm]; exact hE.err
    · rw [hex]; exact hst
  | err er =>
    rw [hg] at hr
    obtain ⟨r, hex⟩ := hr
    have he' : (setLocal tmp ⟨tUint32, .data (.scalar (.uint32 0))⟩ s.locals).lookup go!"err" = some noErr := by rw [hoth _ _ h2.symm]; exact hE.err
    have hsig' : (setLocal go!"err" (errTV er) (setLocal tmp ⟨tUint32, .data (.scalar (.uint32 0))⟩ s.locals)).map sig = s.locals.map sig := (sig_err he' er).trans (hsig _)
    have hoth' : ∀ n, n ≠ tmp → n ≠ go!"err" → (setLocal go!"err" (errTV er) (setLocal tmp ⟨tUint32, .data (.scalar (.uint32 0))⟩ s.locals)).lookup n = s.locals.lookup n :=
      fun n hn he => by rw [lookup_setLocal_ne _ he, hoth _ n hn]
    have hst := step 0 ⟨setLocal go!"err" (errTV er) (setLocal tmp ⟨tUint32, .data (.scalar (.uint32 0))⟩ s.locals), s.out, r⟩ hsig' hoth'
      (by rw [lookup_setLocal_ne _ h2, lookup_setLocal_self _ ht])
    have hd := (hdest _ hsig' hoth') (.scalar (.enum 0))
    refine ⟨⟨_, s.out, r⟩, .of_eq (hd.2.1.trans hsig'), ⟨hR _ hsig' hoth', rfl⟩, base_sig (hd.2.1.trans hsig') hE.base, ?_, ?_⟩
    · rw [hd.2.2 _ h4.symm, lookup_setLocal_self _ he']
    · rw [hex]; exact hst
  | panic => rw [hg] at hr; simp only at hr ⊢; rw [hr]
  | _ => trivial

/-! ## Calls of `decode` -/

/-- The call does what the model does; after an error `E` holds of the receiver. -/
def Calls (E : V → Prop) (m : M (Option Value × List TV)) (G : GoGen.D V) : Prop :=
  ∀ s, match G s.inp with
    | .ok r v => m s = .ok (some (.data v), [noErr]) { s with inp := r }
    | .err e => ∃ w s', s'.locals = s.locals ∧ (E w ∧ s'.out = s.out) ∧ m s = .ok (some (.data w), [errTV e]) s'
    | .panic => m s = .fail .panic
    | _ => True

/-- Storing what a call of `decode` returned: the receiver, then the error. -/
theorem tries_method {root : Ident} {e cE : Expr} {t : Ty} {upd : V → List (Ident × TV)} (hc : Cell f rd call root e t upd) (h1 : root ≠ go!"d") (h2 : root ≠ go!"err")
    {w : V} (hE : DecEnv (upd w)) {G : GoGen.D V} {m : M (Option Value × List TV)} {E : V → Prop} (hm : Calls E m G) (hR : ∀ v, E v → R.In (upd v))
    (heval : ∀ s, s.locals = upd w → eval (program f) rd call cE s = match m s with
      | .ok (some v, vs) s' => (do store (program f) rd call e ⟨t, v⟩; pure vs : M _) s'
      | .ok (none, _) _ => .fail .bad
      | .fail e => .fail e) : Tries R f rd call [.assign verr cE] (upd w) G (fun v l' => l' = upd v) := by
  intro s hs
  have h3 := hm s
  rw [exec_block_cons, exec]
  cases hG : G s.inp with
  | ok r v =>
    rw [hG] at h3
    simp only at h3 ⊢
    refine ⟨upd v, rfl, .of_eq (hc.sig w v), hc.env h1 h2 hE v, ?_⟩
    have hev := heval s hs
    rw [h3] at hev
    simp only at hev
    rw [bind_ok (hc.stores w v { s with inp := r } hs)] at hev
    rw [bind_ok (one_ok hev)]
    have he := (hc.env h1 h2 hE v).err
    rw [noErr, bind_ok (store_err (s := ⟨upd v, s.out, r⟩) _ he)]
    show exec _ rd call (block []) _ = _
    simp only [show (⟨tError, .err none⟩ : TV) = noErr from rfl, setLocal_self he]
    exact exec_block_nil _
  | err er =>
    rw [hG] at h3
    obtain ⟨v, s', hs', ⟨hv, ho⟩, h3⟩ := h3
    have hev := heval s hs
    rw [h3] at hev
    simp only at hev
    rw [bind_ok (hc.stores w v s' (hs'.trans hs))] at hev
    rw [bind_ok (one_ok hev)]
    have he := (hc.env h1 h2 hE v).err
    rw [errTV, bind_ok (store_err (s := { s' with locals := upd v }) _ he)]
    have hsig := (sig_err he er).trans (hc.sig w v)
    exact ⟨{ s' with locals := setLocal go!"err" (errTV er) (upd v) }, .of_eq hsig, ⟨(hR v hv).set (by decide) _, ho⟩, base_sig hsig hE.base, lookup_setLocal_self _ he, exec_block_nil _⟩
  | panic =>
    rw [hG] at h3
    simp only at h3 ⊢
    have hev := heval s hs
    rw [h3] at hev
    rw [bind_fail]
    rw [one, bind_fail hev]
  | _ => trivial

/-- A struct of type `m`, well-typed. -/
def IsStruct (f : FileD) (m : Nat) (v : V) : Prop := ∃ fs, v = .msg fs ∧ OfFields f.schema (f.schema.fields m) fs

theorem IsStruct.ofField {m : Nat} {v : V} (h : IsStruct f m v) (c : Bool) : v.OfField f.schema (.one .message m c) := by
  obtain ⟨fs, rfl, h⟩ := h
  simpa [V.OfField] using h

/-- The generated functions do what the model of them does. -/
structure DecCallees [Lib] (f : FileD) (call : Callee) (rec : GoGen.Callees) : Prop where
  new : ∀ m t, f.types[m]? = some t → rec.new m = GoGen.D.overflow ∨ ∃ fs, rec.new m = pure fs ∧ OfFields f.schema (f.schema.fields m) fs ∧
    ∀ s, call (newFunc (camel t.1) (newElements t.2)).fn none [] s = .ok (none, [⟨.ptr (.name (camel t.1)), .data (.msg fs)⟩]) s
  decode : ∀ m t fs, f.types[m]? = some t → OfFields f.schema (f.schema.fields m) fs →
    Calls (IsStruct f m) (call (decodeDecl t.1 t.2).fn (some (.data (.msg fs))) [.decoder]) (do let fs ← rec.decode m fs; pure (.msg fs))

/-- `err = e.decode(d)` for a pointer to a struct. -/
theorem tries_decode (h : f.Plain) {rec : GoGen.Callees} (hrec : DecCallees f call rec) {m : Nat} {t : Bytes × List FieldD} (ht : f.types[m]? = some t)
    {root : Ident} {e : Expr} {upd : V → List (Ident × TV)} (hc : Cell f rd call root e (.ptr (.name (camel t.1))) upd) (h1 : root ≠ go!"d") (h2 : root ≠ go!"err")
    {fs : List V} (hfs : OfFields f.schema (f.schema.fields m) fs) (hE : DecEnv (upd (.msg fs)))
    (hR : ∀ v, V.OfField f.schema (.one .message m false) v → R.In (upd v)) :
    Tries R f rd call [.assign verr (.call1 (.sel e go!"decode") vd)] (upd (.msg fs)) (do let fs ← rec.decode m fs; pure (.msg fs)) (fun v l' => l' = upd v) := by
  refine tries_method hc h1 h2 hE (hrec.decode m t fs ht hfs) (fun v hv => hR v (hv.ofField false)) fun s hs => ?_
  have hmem := List.mem_of_getElem? ht
  rw [eval, bind_ok (target_method (isPackage_false hc.notPackage) (hc.reads _ s hs)), vd, bind_ok (one_ok (eval_local (by rw [hs]; exact hE.d)))]
  have harg : arguments (program f) (decodeDecl t.1 t.2).fn.params [⟨tDecoder, .decoder⟩] = some [.decoder] := by cases lib <;> rfl
  have hfind : findMethod (program f) (camel t.1) go!"decode" = some (decodeDecl t.1 t.2).fn := find_decode h hmem
  have hrecv : (decodeDecl t.1 t.2).fn.recv.map (·.2) = some (.ptr (.name (camel t.1))) := rfl
  simp only [apply, base, hfind, hrecv, harg, bind_apply, need_some, if_true]
  cases call (decodeDecl t.1 t.2).fn (some (.data (.msg fs))) [.decoder] s with
  | fail e => rfl
  | ok r s' =>
    obtain ⟨v, vs⟩ := r
    cases v with
    | none => rfl
    | some v => rfl

/-- `e = NewT()` -/
theorem exec_new (h : f.Plain) {m : Nat} {t : Bytes × List FieldD} (ht : f.types[m]? = some t) {fs : List V}
    (hnew : ∀ s, call (newFunc (camel t.1) (newElements t.2)).fn none [] s = .ok (none, [⟨.ptr (.name (camel t.1)), .data (.msg fs)⟩]) s)
    {root : Ident} {e : Expr} {upd : V → List (Ident × TV)} (hc : Cell f rd call root e (.ptr (.name (camel t.1))) upd)
    {w : V} (hN : (upd w).lookup (go!"New" ++ camel t.1) = none) (s : St) (hs : s.locals = upd w) :
    exec (program f) rd call (block [.assign e (.call0 (.var (go!"New" ++ camel t.1)))]) s = .ok .next { s with locals := upd (.msg fs) } := by
  have hmem := List.mem_of_getElem? ht
  have hfind : findFunc (program f) (go!"New" ++ camel t.1) = some (newFunc (camel t.1) (newElements t.2)).fn := find_new h hmem
  rw [exec_block_cons, exec]
  have hev : eval (program f) rd call (.call0 (.var (go!"New" ++ camel t.1))) s = .ok [⟨.ptr (.name (camel t.1)), .data (.msg fs)⟩] s := by
    refine eval_call0 (t := .name (go!"New" ++ camel t.1)) (r := ([_], none)) (target_name (by rw [hs]; exact hN)) ?_ (storeReceiver_none _ _)
    rw [apply]
    simp only [hfind]
    rw [show arguments (program f) (newFunc (camel t.1) (newElements t.2)).fn.params [] = some [] from rfl, bind_ok (need_some _ s), bind_ok (hnew s)]
    rfl
  rw [bind_ok (one_ok hev), bind_ok (hc.stores _ (.msg fs) s hs)]
  exact exec_block_nil _

end

end GoRun
