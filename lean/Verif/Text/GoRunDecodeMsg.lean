import Verif.Text.GoRunDecodeMap

/-!
# Running the generated `Decode`: fields
-/

namespace GoRun

open Utils Text GoAst GoText Gen Spec
open GoGen (AnyLaw)
open GoV2 (Req)

variable {lib : Lib}

section
variable {f : FileD} {rd : GoGen.Codec} {call : Callee} {α β : Type} {R : Recv} {U : List Ident}

/-! ## Scalars and enums -/

/-- A scalar or enum field. -/
theorem sim_value (h : f.Plain) (hl : AnyLaw ver rd) {t : Bytes × List FieldD} (ht : t ∈ f.types)
    {l : List (Ident × TV)} {vs : List V} (hS : DecState t U vs l) (ho : OfFields f.schema (t.2.map (FieldD.toField f)) vs)
    {i : Nat} {g : FieldD} (hg : t.2[i]? = some g) (hU : ∀ n ∈ g.mentions t.1, n ∈ U) {old : V} (hv : vs[i]? = some old)
    (hp : g.isValue = true) (hnd : g.kind = .enum → camel g.name ++ go!"Temp" ∉ U) (hty : old.OfField f.schema (g.toField f)) :
    Sim (recv f t) f rd call (GoText.decValue (camel g.name) g.kind (camel g.type)) l (GoGen.decValue rd (ver : GoGen.Version).bytesScratch (g.toField f) old) (fun v l' => DecState t U (vs.set i v) l') := by
  have hgm := List.mem_of_getElem? hg
  obtain ⟨r, hs⟩ : ∃ r, g.shape = .one r := by cases hsh : g.shape <;> simp [FieldD.isValue, hsh] at hp ⊢
  have hm : g.kind ≠ .message := by simpa [FieldD.isValue, hs] using hp
  have hgr : g.kind ≠ .group := ((h.wf.typeWf ht).fields g hgm).kind
  have hto : g.toField f = .one g.kind (f.ref g.kind g.type) r := by simp [FieldD.toField, hs]
  rw [hto] at hty ⊢
  have hc := hS.cell (rd := rd) (call := call) h ht hg hv
  have hself := hS.self hv
  have hfty : fieldTy t.1 g = elemTy g.kind (camel g.type) := by simp [fieldTy, hs]
  rw [hfty] at hc
  by_cases he : g.kind = .enum
  · have hen := (h.closed t ht g hgm).2 he
    have hlow : Upper (camel g.name ++ go!"Temp") := (upper_camel (.one ((h.wf.typeWf ht).fields g hgm).name)).append _
    have hnd := hnd he
    have htU : camel g.type ∈ U := hU _ (by simp [FieldD.mentions, hs, he])
    generalize hkd : g.kind = kd at he hc hen ⊢
    subst he
    have hG : GoGen.decValue rd (ver : GoGen.Version).bytesScratch (.one .enum (f.ref .enum g.type) r) old = (do let s ← GoGen.assignEnum rd .Uint32; pure (.scalar s)) := by unfold GoGen.decValue; rfl
    rw [hG]
    have hzu : zero (program f) tuint32 = some (.data (.scalar (.uint32 0))) := (zero_basic h ⟨_, _, rfl, by decide⟩).trans rfl
    have hne : ∀ {m : Ident}, Lower m → camel g.name ++ go!"Temp" ≠ m := fun hm => upper_ne hlow hm
    refine Sim.pre (a := [_]) (l' := (camel g.name ++ go!"Temp", ⟨tUint32, .data (.scalar (.uint32 0))⟩) :: l)
      (exec_var (hne ⟨_, _, rfl, by decide⟩) hzu) (.cons (hne ⟨_, _, rfl, by decide⟩) _) ?_
    have hres : camel g.name ++ go!"Temp" ∉ reserved := by
      intro hr
      simp only [reserved, List.mem_cons, List.not_mem_nil, or_false] at hr
      rcases hr with hr | hr | hr | hr <;> exact hne ⟨_, _, rfl, by decide⟩ hr
    have hS1 : DecState t U vs ((camel g.name ++ go!"Temp", ⟨tUint32, .data (.scalar (.uint32 0))⟩) :: l) :=
      ⟨hS.dec.cons hres (hne ⟨_, _, rfl, by decide⟩) (hne ⟨_, _, rfl, by decide⟩) _, hS.env.cons hnd _, hS.up,
        by rw [lookup_cons_ne (hne ⟨_, _, rfl, by decide⟩).symm]; exact hS.x⟩
    have := tries_enum (R := recv f t) (call := call) h hl hS1.dec (lookup_cons_self ..) (hne ⟨_, _, rfl, by decide⟩) (hne ⟨_, _, rfl, by decide⟩) (hne ⟨_, _, rfl, by decide⟩) hen
      (hS1.env _ htU) (e := xf (camel g.name)) (root := go!"x") (by decide) (by decide) (dest := fieldUpd t vs i) ?_ ?_
    · refine (this.next (H := fun s => pure (V.scalar s)) ?_).check h
      rintro s l' ⟨l1, h1, h2, rfl⟩
      refine .inr ⟨_, rfl, ?_⟩
      have hS2 : DecState t U vs l1 := ⟨⟨base_sig h1 hS1.dec.base, (h2 _ (hne ⟨_, _, rfl, by decide⟩).symm).trans hS1.dec.d, (h2 _ (hne ⟨_, _, rfl, by decide⟩).symm).trans hS1.dec.err⟩,
        hS1.env.sig h1, hS.up, (h2 _ (hne ⟨_, _, rfl, by decide⟩).symm).trans hS1.x⟩
      exact hS2.upd i _
    rotate_left
    · intro l' h1 h2
      have hx' : l'.lookup go!"x" = some ⟨.ptr (.name (camel t.1)), .data (.msg vs)⟩ := (h2 _ (hne ⟨_, _, rfl, by decide⟩).symm (by decide)).trans hS1.x
      exact ⟨_, lookup_setLocal_self _ hx', _, rfl, GoGen.ofFields_set ho (by rw [List.getElem?_map, hg]; rfl) (by rw [hto, hkd]; simp [V.OfField, Scalar.OfKind])⟩
    · intro l' hs' ho v
      have hx' : l'.lookup go!"x" = some ⟨.ptr (.name (camel t.1)), .data (.msg vs)⟩ := (ho _ (hne ⟨_, _, rfl, by decide⟩).symm (by decide)).trans hS1.x
      obtain ⟨hi, _⟩ := List.getElem?_eq_some_iff.mp hv
      have hc' := cell_field (rd := rd) (call := call) h ht hx' hg hi
      have hself' : fieldUpd t vs i l' old = l' := by rw [fieldUpd, set_getElem hv, setLocal_self hx']
      rw [hfty, hkd] at hc'
      exact ⟨fun s hs => hc'.stores old v s (by rw [hs]; exact hself'.symm), sig_setLocal hx' rfl, fun n hn => lookup_setLocal_ne _ hn _⟩
  · rw [elemTy_scalar hm he] at hc
    obtain ⟨m, ty, z, hr⟩ := scalarRead (k := g.kind) ⟨hm, hgr⟩ he
    by_cases hb : g.kind = .bytes
    · obtain ⟨b, rfl⟩ : ∃ b, old = .scalar (.bytes b) := by
        cases old with
        | scalar s => cases s <;> simp_all [V.OfField, Scalar.OfKind]
        | _ => simp_all [V.OfField]
      generalize hkd : g.kind = kd at hb hc ⊢
      subst hb
      have hG : GoGen.decValue rd (ver : GoGen.Version).bytesScratch (.one .bytes (f.ref .bytes g.type) r) (.scalar (.bytes b)) = (do let s ← GoGen.assign rd .Bytes (if (ver : GoGen.Version).bytesScratch then b else []) .bytes; pure (.scalar s)) := by
        unfold GoGen.decValue; rfl
      rw [hG]
      have := tries_bytes (call := call) h hl hc (by decide) (by decide) (b := b) (by rw [hself]; exact hS.dec) (hS.recv_upd ho hg (by rw [hto]; simp [hkd, V.OfField, Scalar.OfKind]))
      rw [hself] at this
      refine (this.next (H := fun s => pure (V.scalar s)) ?_).check h
      rintro s l' rfl
      exact .inr ⟨_, rfl, hS.upd i _⟩
    · have hst : GoText.decValue (camel g.name) g.kind (camel g.type) = [.assign2 (xf (camel g.name)) verr (.call0 (.sel vd (method g.kind)))] ++ [check] := by
        cases hkd : g.kind <;> simp_all [GoText.decValue]
      rw [hst]
      have hG : GoGen.decValue rd (ver : GoGen.Version).bytesScratch (.one g.kind (f.ref g.kind g.type) r) old = (do let s ← GoGen.assign rd m [] ty; pure (.scalar s)) := by
        unfold GoGen.decValue
        have hfind : GoGen.FindValue (.one g.kind (f.ref g.kind g.type) r) = some ty := hr.find _
        have hbm : m ≠ .Bytes := fun h => hb (hr.bytes.mp h)
        simp only [Field.Kind, hr.lut, hfind, hb, he, hbm, if_false]
      rw [hG]
      have := tries_scalar (call := call) hl hr hb hc (by decide) (by decide) (w := old) (by rw [hself]; exact hS.dec) (hS.recv_upd ho hg (by rw [hto]; exact hr.typed ..))
      rw [hself] at this
      refine (this.next (H := fun s => pure (V.scalar s)) ?_).check h
      rintro s l' rfl
      exact .inr ⟨_, rfl, hS.upd i _⟩

/-! ## Messages and maps -/

/-- A message field. -/
theorem sim_message (h : f.Plain) (hl : AnyLaw ver rd) {rec : GoGen.Callees} (hrec : DecCallees f call rec) {t : Bytes × List FieldD} (ht : t ∈ f.types)
    {l : List (Ident × TV)} {vs : List V} (hS : DecState t U vs l) (ho : OfFields f.schema (t.2.map (FieldD.toField f)) vs)
    {i : Nat} {g : FieldD} (hg : t.2[i]? = some g) (hU : ∀ n ∈ g.mentions t.1, n ∈ U) {old : V} (hv : vs[i]? = some old)
    {r : Bool} (hs : g.shape = .one r) (hk : g.kind = .message) (hty : old.OfField f.schema (g.toField f)) :
    Sim (recv f t) f rd call (GoText.decMessage (camel g.name) (camel g.type)) l (GoGen.decMessage ver rd rec (g.toField f) old) (fun v l' => DecState t U (vs.set i v) l') := by
  have hgm := List.mem_of_getElem? hg
  obtain ⟨t', ht', hn⟩ := type_ref h ht hgm hk
  have hto : g.toField f = .one g.kind (f.ref g.kind g.type) r := by simp [FieldD.toField, hs]
  have hc := hS.cell (rd := rd) (call := call) h ht hg hv
  have hself := hS.self hv
  have hfty : fieldTy t.1 g = .ptr (.name (camel t'.1)) := by simp [fieldTy, hs, hk, elemTy, hn]
  rw [hfty] at hc
  rw [hto]
  cases lib with
  | v1 =>
    have hG : GoGen.decMessage (@ver .v1) rd rec (.one g.kind (f.ref g.kind g.type) r) old = GoGen.decInto rec (f.ref g.kind g.type) old := by
      unfold GoGen.decMessage; rfl
    rw [hG]
    have hold : old.OfField f.schema (.one .message (f.ref g.kind g.type) false) := by
      rw [hto, hk] at hty
      rw [hk]
      cases old <;> simp_all [V.OfField]
    have := @sim_into .v1 f rd call (recv f t) h rec hrec _ t' ht' go!"x" _ _ hc (by decide) (by decide) old hold (by rw [hself]; exact @DecState.dec .v1 _ _ _ _ hS)
      (by rw [hself, hn]; exact @DecState.env .v1 _ _ _ _ hS _ (hU _ (mentions_new hk (by simp [hs]))))
      (fun v hv' => @DecState.recv_upd .v1 _ _ _ _ _ hS ho _ _ hg _ (by rw [hto, hk]; cases v <;> simp_all [V.OfField]))
    rw [hself, hn] at this
    refine SimM.imp this ?_
    rintro v l' rfl _
    exact @DecState.upd .v1 _ _ _ _ hS i v
  | v2 =>
    have hG : GoGen.decMessage (@ver .v2) rd rec (.one g.kind (f.ref g.kind g.type) r) old = (do if ← GoGen.isNil rd then pure old else GoGen.decInto rec (f.ref g.kind g.type) .nil) := by
      unfold GoGen.decMessage; rfl
    rw [hG]
    open LibV2 in
    refine sim_notNil hl hS.dec.d (by rw [set_getElem hv]; exact hS) ?_
    open LibV2 in
    have := sim_fresh h hrec ht' hc (by decide) (by decide) (w := old) (by rw [hself]; exact hS.dec) (by rw [hself, hn]; exact hS.env _ (hU _ (mentions_new hk (by simp [hs]))))
      (fun v hv' => hS.recv_upd ho hg (by rw [hto, hk]; cases v <;> simp_all [V.OfField]))
    rw [hself, hn] at this
    refine SimM.inBlock (Q := fun v l' => l' = fieldUpd t vs i l v) this ?_
    rintro v l' rfl _
    have hlen : (fieldUpd t vs i l v).length = l.length := setLocal_length ..
    simpa [hlen] using @DecState.upd .v2 _ _ _ _ hS i v

/-- `n, err := d.Map(k, v)` -/
theorem tries_define {l : List (Ident × TV)} (hE : DecEnv l) {n : Ident} (hn : n ∉ reserved) (h1 : n ≠ go!"d") (h2 : n ≠ go!"_") (h3 : n ≠ go!"x") {callE : Expr} {m : Ident} {args : List TV}
    {q : Req} (hm : m ≠ go!"Nil") (hq : request m args = some (q, tUint32))
    (hcall : ∀ s : St, s.locals = l → eval (program f) rd call callE s = decoderCall rd m args s)
    (hret : ∀ b r i, rd q b = .ok (r, .value i) → ∃ v, returned i = some v) (hR : R.In l) :
    Tries R f rd call [.define2 n go!"err" callE] l (GoGen.read rd q) (fun i l' => ∃ v, returned i = some v ∧ l' = (go!"err", noErr) :: (n, ⟨tUint32, .data v⟩) :: l) := by
  intro s hs
  have hc := hcall s hs
  unfold decoderCall at hc
  rw [if_neg hm] at hc
  simp only [hq] at hc
  have hb : ∀ v w, Base ((go!"err", w) :: (n, v) :: l) := fun v w => (hE.base.cons hn v).cons (by decide) w
  have hx : ∀ v w, Sfx l ((go!"err", w) :: (n, v) :: l) := fun v w => (Sfx.cons h3 _).trans (.cons (show go!"err" ≠ go!"x" by decide) _)
  rw [exec_block_cons, exec, bind_apply, hc, GoGen.read]
  cases hr : rd q s.inp with
  | panic => rfl
  | ok p =>
    obtain ⟨r, o⟩ := p
    cases o with
    | notNil => trivial
    | value i =>
      obtain ⟨v, hv⟩ := hret _ r i hr
      refine ⟨_, ⟨v, hv, rfl⟩, hx _ _, ⟨hb _ _, ?_, lookup_cons_self ..⟩, ?_⟩
      · rw [lookup_cons_ne (by decide), lookup_cons_ne h1.symm]; exact hE.d
      · simp only [hv, declare, bind_apply, if_neg h2, pure_apply, hs, if_neg (show go!"err" ≠ go!"_" by decide)]
        exact exec_block_nil _
    | error e =>
      refine ⟨⟨(go!"err", errTV e) :: (n, ⟨tUint32, .data (.scalar (.uint32 0))⟩) :: l, s.out, r⟩, hx _ _, ⟨(hR.cons h3).cons (show go!"err" ≠ go!"x" by decide), rfl⟩, hb _ _, lookup_cons_self .., ?_⟩
      have hz : zero [] tUint32 = some (.data (.scalar (.uint32 0))) := rfl
      simp only [hz, declare, bind_apply, if_neg h2, pure_apply, hs, if_neg (show go!"err" ≠ go!"_" by decide)]
      exact exec_block_nil _

/-- The constructor of the type of a map field. -/
def MapNew (call : Callee) : Prop :=
  ∀ kt vt (size : BitVec 32) s, call ⟨none, [(go!"size", tuint32)], some (.map kt vt), block [.ret1 (.make (.map kt vt) (.var go!"size"))]⟩ none
    [.data (.scalar (.uint32 size))] s = .ok (none, [⟨.map kt vt, .data (.map [] [])⟩]) s

theorem run_mapNew (d : Nat) : MapNew (runFn (program f) rd (d + 1)) := by
  intro kt vt size s
  rw [runFn]
  have hev : ∀ s' : St, s'.locals.lookup go!"size" = some ⟨tuint32, .data (.scalar (.uint32 size))⟩ →
      exec (program f) rd (runFn (program f) rd d) (block [.ret1 (.make (.map kt vt) (.var go!"size"))]) s' = .ok (.ret [⟨.map kt vt, .data (.map [] [])⟩]) s' := by
    intro s' h'
    rw [exec_block_cons, exec, bind_apply, eval, bind_ok (one_ok (eval_local h'))]
    rfl
  simp only [frame, List.zipWith_cons_cons, List.zipWith_nil_left]
  rw [hev { s with locals := _ } (lookup_cons_self ..)]
  have ha : assignTo (program f) (.map kt vt) ⟨.map kt vt, .data (.map [] [])⟩ = some (.data (.map [] [])) := assignTo_same _ _
  simp only [results, ha, Option.map_some, receiver]

theorem last_ne {a b : Ident} (h : a.getLast? ≠ b.getLast?) : a ≠ b := by rintro rfl; exact h rfl

/-- A map field. -/
theorem sim_map (h : f.Plain) (hl : AnyLaw ver rd) {rec : GoGen.Callees} (hnew : MapNew call) (hdec : MapDecoder f rd call rec) {t : Bytes × List FieldD} (ht : t ∈ f.types)
    {l : List (Ident × TV)} {vs : List V} (hS : DecState t U vs l) (ho : OfFields f.schema (t.2.map (FieldD.toField f)) vs)
    {i : Nat} {g : FieldD} (hg : t.2[i]? = some g) (hU : ∀ n ∈ g.mentions t.1, n ∈ U) {old : V} (hv : vs[i]? = some old)
    {kk : PKind} (hs : g.shape = .map kk) :
    Sim (recv f t) f rd call [GoText.decMap (camel g.name) kk g.kind (mapName t.1 g)] l (GoGen.decMessage ver rd rec (g.toField f) old) (fun v l' => DecState t U (vs.set i v) l') := by
  have hgm := List.mem_of_getElem? hg
  have hwf := (h.wf.typeWf ht).fields g hgm
  have hkk := hwf.key kk hs
  have hto : g.toField f = .map kk g.kind (f.ref g.kind g.type) := by simp [FieldD.toField, hs]
  have hkg : kk ≠ .group := hkk.2.2.2.2.2
  obtain ⟨k1, hk1⟩ := GoGen.getKind_ok hkg
  obtain ⟨k2, hk2⟩ := GoGen.getKind_ok hwf.kind
  have ann : ∀ {k : PKind} {b : Byte}, GoGen.GetKind k = some b → k.announced = b := by
    intro k b hb
    cases k <;> simp [GoGen.GetKind, GoGen.kindLUT] at hb <;> subst hb <;> rfl
  rw [hto]
  have hG : GoGen.decMessage ver rd rec (.map kk g.kind (f.ref g.kind g.type)) old = (do
      if ← GoGen.isNil rd then pure old
      else match ← GoGen.read rd (.map k1 k2) with
        | .map size _ _ => do
          let e ← GoGen.decEntries rd rec kk g.kind (f.ref g.kind g.type) size.toNat [] []
          pure (.map e.1 e.2)
        | _ => GoGen.D.bad) := by
    unfold GoGen.decMessage
    simp only [hk1, hk2]
    rfl
  rw [hG]
  refine sim_notNil hl hS.dec.d (by rw [set_getElem hv]; exact hS) ?_
  have hup : Upper (camel g.name ++ go!"Size") := (upper_camel (.one hwf.name)).append _
  have hne : ∀ {m : Ident}, Lower m → camel g.name ++ go!"Size" ≠ m := fun hm => upper_ne hup hm
  have hres : camel g.name ++ go!"Size" ∉ reserved := by
    intro hr
    simp only [reserved, List.mem_cons, List.not_mem_nil, or_false] at hr
    rcases hr with hr | hr | hr | hr <;> exact hne ⟨_, _, rfl, by decide⟩ hr
  refine SimM.inBlock (Q := fun v l' => ∃ w, l' = (go!"err", noErr) :: (camel g.name ++ go!"Size", w) :: fieldUpd t vs i l v) ?_ ?_
  · refine Sim.seq (a := [_, _]) (b := [_, _, _]) ((tries_define hS.dec hres (hne ⟨_, _, rfl, by decide⟩) (hne ⟨_, _, rfl, by decide⟩) (hne ⟨_, _, rfl, by decide⟩)
      (m := go!"Map") (args := [⟨tKind, .kind k1⟩, ⟨tKind, .kind k2⟩]) (q := .map k1 k2) (by decide) (by simp [request]) (fun s hs' => ?_) (returned_some hl (by simp) (.inr (by simp))) (hS.recv ho)).check h) ?_
    · exact eval_d2 (by rw [hs']; exact hS.dec.d) _ (by rw [← ann hk1]; exact eval_kindConst hS.dec.base hs' hkg) (by rw [← ann hk2]; exact eval_kindConst hS.dec.base hs' hwf.kind)
    rintro it l1 ⟨u, hu, rfl⟩
    cases it with
    | map size a b =>
      simp only [returned, Option.some.injEq] at hu
      subst hu
      simp only
      generalize hl1 : (go!"err", noErr) :: (camel g.name ++ go!"Size", (⟨tUint32, .data (.scalar (.uint32 size))⟩ : TV)) :: l = l1
      have hfu : ∀ w, fieldUpd t vs i l1 w = (go!"err", noErr) :: (camel g.name ++ go!"Size", (⟨tUint32, .data (.scalar (.uint32 size))⟩ : TV)) :: fieldUpd t vs i l w := fun w => by
        rw [← hl1, fieldUpd_cons _ _ _ (by decide), fieldUpd_cons _ _ _ (hne ⟨_, _, rfl, by decide⟩)]
      have hsz : l1.lookup (camel g.name ++ go!"Size") = some ⟨tUint32, .data (.scalar (.uint32 size))⟩ := by
        rw [← hl1, lookup_cons_ne (hne ⟨_, _, rfl, by decide⟩), lookup_cons_self]
      have hE1 : DecEnv l1 := by
        rw [← hl1]
        refine ⟨(hS.dec.base.cons hres _).cons (by decide) _, ?_, lookup_cons_self ..⟩
        rw [lookup_cons_ne (by decide), lookup_cons_ne (hne ⟨_, _, rfl, by decide⟩).symm]; exact hS.dec.d
      have hx1 : l1.lookup go!"x" = some ⟨.ptr (.name (camel t.1)), .data (.msg vs)⟩ := by
        rw [← hl1, lookup_cons_ne (by decide), lookup_cons_ne (hne ⟨_, _, rfl, by decide⟩).symm]; exact hS.x
      have hlast : go!"New" ++ mapName t.1 g ≠ camel g.name ++ go!"Size" := by
        refine last_ne ?_
        rw [mapName, ← List.append_assoc, List.getLast?_append, List.getLast?_append (l := camel g.name)]
        simp only [show (go!"Map" : Ident).getLast? = some (.byte 112#8) by decide, show (go!"Size" : Ident).getLast? = some (.byte 101#8) by decide, Option.some_or]
        decide
      have hN1 : l1.lookup (go!"New" ++ mapName t.1 g) = none := by
        rw [← hl1, lookup_cons_ne (upper_ne (upper_new _) ⟨_, _, rfl, by decide⟩), lookup_cons_ne hlast]
        exact hS.env _ (hU _ (by simp [FieldD.mentions, hs]))
      obtain ⟨hi, _⟩ := List.getElem?_eq_some_iff.mp hv
      have hc : Cell f rd call go!"x" (xf (camel g.name)) (.name (mapName t.1 g)) (fieldUpd t vs i l1) := by
        have := cell_field (rd := rd) (call := call) h ht hx1 hg hi
        rw [show fieldTy t.1 g = .name (mapName t.1 g) by simp [fieldTy, hs]] at this
        exact this
      have hself : fieldUpd t vs i l1 old = l1 := by rw [fieldUpd, set_getElem hv, setLocal_self hx1]
      have hE2 : DecEnv (fieldUpd t vs i l1 (.map [] [])) := hc.env (by decide) (by decide) (w := old) (by rw [hself]; exact hE1) _
      have hs2 : (fieldUpd t vs i l1 (.map [] [])).lookup (camel g.name ++ go!"Size") = some ⟨tUint32, .data (.scalar (.uint32 size))⟩ := by
        rw [fieldUpd, lookup_setLocal_ne _ (hne ⟨_, _, rfl, by decide⟩)]; exact hsz
      refine Sim.pre (a := [_]) (b := [_, _]) (l' := fieldUpd t vs i l1 (.map [] [])) (fun s hs' => ?_) (.of_eq ((hc.sig old _).trans (by rw [hself]))) ?_
      · have hev : eval (program f) rd call (.call1 (.var (go!"New" ++ mapName t.1 g)) (.var (camel g.name ++ go!"Size"))) s =
            .ok [⟨.map (scalarTy kk) (elemTy g.kind (camel g.type)), .data (.map [] [])⟩] s := by
          refine eval_call1 (t := .name (go!"New" ++ mapName t.1 g)) (r := ([_], none)) (target_name (by rw [hs']; exact hN1)) (eval_local (by rw [hs']; exact hsz)) ?_ (storeReceiver_none _ _)
          rw [apply, find_mapNew h ht hgm hs]
          have harg : arguments (program f) [(go!"size", tuint32)] [⟨tUint32, .data (.scalar (.uint32 size))⟩] = some [.data (.scalar (.uint32 size))] := rfl
          simp only [harg]
          rw [bind_ok (need_some _ s), bind_ok (hnew _ _ size s)]
          rfl
        rw [exec_block_cons, exec, bind_ok (one_ok hev)]
        rw [bind_ok (hc.puts old _ (.map [] []) s (by rw [hs', hself]) ?_)]
        · exact exec_block_nil _
        · simp only [assignTo, find_mapType h ht hgm hs, reduceCtorEq, if_false, and_self, if_true]
      · have hm := tries_method hc (by decide) (by decide) hE2 (hdec t ht g hgm kk hs size) (R := recv f t) (fun v hv' => ⟨_, lookup_setLocal_self _ hx1, _, rfl, GoGen.ofFields_set ho (by rw [List.getElem?_map, hg]; rfl) (by rw [hto]; exact hv')⟩)
          (cE := .call2 (.sel (xf (camel g.name)) go!"decode") vd (.var (camel g.name ++ go!"Size"))) (fun s hs' => ?_)
        · refine SimM.imp (hm.check h) ?_
          rintro v l' rfl _
          exact ⟨_, hfu v⟩
        · rw [eval, bind_ok (target_method (isPackage_false hc.notPackage) (hc.reads _ s hs')), vd, bind_ok (one_ok (eval_local (by rw [hs']; exact hE2.d))),
            bind_ok (one_ok (eval_local (by rw [hs']; exact hs2)))]
          have harg : arguments (program f) (decodeMapFunc (mapName t.1 g) kk g.kind (camel g.type)).fn.params [⟨tDecoder, .decoder⟩, ⟨tUint32, .data (.scalar (.uint32 size))⟩] =
            some [.decoder, .data (.scalar (.uint32 size))] := by cases lib <;> rfl
          have hfind := find_mapDecode h ht hgm hs
          have hrecv : (decodeMapFunc (mapName t.1 g) kk g.kind (camel g.type)).fn.recv.map (·.2) = some (.name (mapName t.1 g)) := rfl
          simp only [apply, base, hfind, hrecv, harg, bind_apply, need_some, if_true]
          cases call (decodeMapFunc (mapName t.1 g) kk g.kind (camel g.type)).fn (some (.data (.map [] []))) [.decoder, .data (.scalar (.uint32 size))] s with
          | fail e => rfl
          | ok r s' =>
            obtain ⟨v, vs⟩ := r
            cases v with
            | none => rfl
            | some v => rfl
    | _ => exact sim_bad
  · rintro v l' ⟨w, rfl⟩ _
    have hlen : (fieldUpd t vs i l v).length = l.length := setLocal_length ..
    have : ((go!"err", noErr) :: (camel g.name ++ go!"Size", w) :: fieldUpd t vs i l v).length - l.length = 2 := by simp only [List.length_cons, hlen]; omega
    rw [this]
    exact hS.upd i v

end

end GoRun
