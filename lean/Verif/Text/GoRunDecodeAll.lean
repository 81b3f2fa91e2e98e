import Verif.Text.GoRunDecodeMsg

/-!
# Running the generated `Decode`: all fields, all functions
-/

namespace GoRun

open Utils Text GoAst GoText Gen Spec
open GoGen (AnyLaw Yields TypedCallees)
open GoV2 (Req)

variable {lib : Lib}

section
variable {f : FileD} {rd : GoGen.Codec} {call : Callee} {α β : Type}

/-- One statement group per field of a class. -/
theorem sim_fields {t : Bytes × List FieldD} {stmtG : Field → V → GoGen.D V} {stmtT : FieldD → List Stmt} {p : FieldD → Bool} {q : Field → Bool} {rest : List FieldD}
    (hpq : ∀ g ∈ t.2, q (g.toField f) = p g) {Inv : List (Ident × TV) → Prop}
    (hstep : ∀ pre g post vs l old, t.2 = pre ++ g :: post → t.2[pre.length]? = some g → p g = true → DecState t (needs t.1 p (g :: post) rest) vs l → Inv l →
      OfFields f.schema (t.2.map (FieldD.toField f)) vs → vs[pre.length]? = some old → old.OfField f.schema (g.toField f) →
      Sim (recv f t) f rd call (stmtT g) l (stmtG (g.toField f) old)
        (fun v l' => (DecState t (needs t.1 p (g :: post) rest) (vs.set pre.length v) l' ∧ Inv l') ∧ v.OfField f.schema (g.toField f))) :
    ∀ (post pre : List FieldD), t.2 = pre ++ post → ∀ vs l, DecState t (needs t.1 p post rest) vs l → Inv l → OfFields f.schema (t.2.map (FieldD.toField f)) vs →
      Sim (recv f t) f rd call ((post.filter p).flatMap stmtT) l (GoGen.forFields stmtG (t.2.map (FieldD.toField f)) (GoGen.idx q pre.length (post.map (FieldD.toField f))) vs)
        (fun vs' l' => DecState t (rest.flatMap (FieldD.mentions t.1)) vs' l' ∧ Inv l' ∧ OfFields f.schema (t.2.map (FieldD.toField f)) vs') := by
  intro post
  induction post with
  | nil => intro pre _ vs l hS hI ho; exact sim_nil ⟨hS, hI, ho⟩
  | cons g post ih =>
    intro pre hpre vs l hS hI ho
    have hnext : t.2 = (pre ++ [g]) ++ post := by simp [hpre]
    have hlen : (pre ++ [g]).length = pre.length + 1 := by simp
    have hg : t.2[pre.length]? = some g := by rw [hpre]; simp
    have hgm := List.mem_of_getElem? hg
    rw [List.map_cons, GoGen.idx, hpq g hgm]
    cases hp : p g
    · rw [if_neg (by simp), List.filter_cons_of_neg (by simp [hp])]
      have := ih (pre ++ [g]) hnext vs l (by rw [← needs_skip hp]; exact hS) hI ho
      rwa [hlen] at this
    · rw [if_pos rfl, List.filter_cons_of_pos hp, List.flatMap_cons]
      have hf : (t.2.map (FieldD.toField f))[pre.length]? = some (g.toField f) := by rw [List.getElem?_map, hg]; rfl
      obtain ⟨old, hold, hty⟩ := GoGen.ofFields_get f.schema _ _ _ _ ho hf
      rw [GoGen.forFields, hf, hold]
      simp only []
      refine Sim.seq (hstep pre g post vs l old hpre hg hp hS hI ho hold hty) ?_
      rintro v l' ⟨⟨hS', hI'⟩, hv⟩
      have := ih (pre ++ [g]) hnext _ l' (hS'.mono fun n hn => needs_next _ _ hn) hI' (GoGen.ofFields_set ho hf hv)
      rwa [hlen] at this

theorem isValue_toField (g : FieldD) : GoGen.isValue (g.toField f) = g.isValue := by
  cases hs : g.shape <;> simp [FieldD.toField, hs, GoGen.isValue, FieldD.isValue]

theorem isSlice_toField (g : FieldD) : GoGen.isSlice (g.toField f) = g.isSlice := by
  cases hs : g.shape <;> simp [FieldD.toField, hs, GoGen.isSlice, FieldD.isSlice]

theorem isMsg_toField (g : FieldD) : GoGen.isMsg (g.toField f) = g.isMessage := by
  cases hs : g.shape <;> simp [FieldD.toField, hs, GoGen.isMsg, FieldD.isMessage]

/-- Values, then slices, then messages and maps. -/
theorem body_fields (h : f.Plain) (hu : f.Unhidden) (hl : AnyLaw ver rd) {rec : GoGen.Callees} (hrec : DecCallees f call rec) (hty : TypedCallees f.schema rec)
    (hnew : MapNew call) (hdec : MapDecoder f rd call rec) {t : Bytes × List FieldD} (ht : t ∈ f.types) {vs : List V} {l : List (Ident × TV)}
    (hS : DecState t (needs t.1 FieldD.isValue t.2 (afterValues t.2)) vs l) (ho : OfFields f.schema (t.2.map (FieldD.toField f)) vs) :
    Body (recv f t) f rd call
      (((t.2.filter FieldD.isValue).flatMap fun g => GoText.decValue (camel g.name) g.kind (camel g.type)) ++
        ((if t.2.any FieldD.isSlice then [.var go!"sliceSize" tuint32] else []) ++
          (((t.2.filter FieldD.isSlice).flatMap fun g => GoText.decSlice (camel g.name) g.kind (manyTy g.kind g.type) (camel g.type)) ++
            ((t.2.filter FieldD.isMessage).flatMap (decMessageField t.1)))) ++ [.ret1 vnil]) l
      (do let fs ← GoGen.decBody ver rd rec (t.2.map (FieldD.toField f))
            ⟨GoGen.idx GoGen.isMsg 0 (t.2.map (FieldD.toField f)), GoGen.idx GoGen.isSlice 0 (t.2.map (FieldD.toField f)), GoGen.idx GoGen.isValue 0 (t.2.map (FieldD.toField f))⟩ vs
          pure (.msg fs)) := by
  have hsup : ∀ g ∈ t.2, (g.toField f).GoSupported := fun g hg => supported_field h ht hg
  refine Body.of_sim (Q := fun vs' l' => DecState t [] vs' l' ∧ True ∧ OfFields f.schema (t.2.map (FieldD.toField f)) vs') h (F := V.msg) ?_
    (fun a l' hq => ⟨hq.1.dec.base, hq.1.x⟩)
  unfold GoGen.decBody
  refine Sim.seq (sim_fields (rest := afterValues t.2) (fun g _ => isValue_toField g) (Inv := fun _ => True) ?_ t.2 [] rfl vs l hS trivial ho) ?_
  · intro pre g post vs l old hpre hg hp hS _ ho hv hty
    refine (SimM.imp (sim_value h hl ht hS ho hg (fun n hn => needs_self hp _ _ hn) hv hp (hu.free ht hpre hp) hty) fun a l' hq _ => ⟨hq, trivial⟩).yields ?_
    exact GoGen.typed_value (ver := ver) hl f.schema (hsup g (List.mem_of_getElem? hg)) ((isValue_toField g).trans hp) old
  rintro vs1 l1 ⟨hS1, _, ho1⟩
  have hmsgs : ∀ vs l, DecState t ((t.2.filter FieldD.isMessage).flatMap (FieldD.mentions t.1)) vs l → OfFields f.schema (t.2.map (FieldD.toField f)) vs →
      Sim (recv f t) f rd call ((t.2.filter FieldD.isMessage).flatMap (decMessageField t.1)) l
        (GoGen.forFields (GoGen.decMessage ver rd rec) (t.2.map (FieldD.toField f)) (GoGen.idx GoGen.isMsg 0 (t.2.map (FieldD.toField f))) vs)
        (fun vs' l' => DecState t [] vs' l' ∧ True ∧ OfFields f.schema (t.2.map (FieldD.toField f)) vs') := by
    intro vs l hS ho
    refine sim_fields (rest := []) (fun g _ => isMsg_toField g) (Inv := fun _ => True) ?_ t.2 [] rfl vs l (by rw [needs, List.append_nil]; exact hS) trivial ho
    intro pre g post vs l old _ hg hp hS _ ho hv hty'
    refine SimM.yields (SimM.imp (Q := fun v l' => DecState t (needs t.1 FieldD.isMessage (g :: post) []) (vs.set pre.length v) l') ?_ fun a l' hq _ => ⟨hq, trivial⟩)
      (GoGen.typed_decMessage hl hty (hsup g (List.mem_of_getElem? hg)) ((isMsg_toField g).trans hp) old hty')
    cases hs : g.shape with
    | one r =>
      have hk : g.kind = .message := by simpa [FieldD.isMessage, hs] using hp
      have := sim_message h hl hrec ht hS ho hg (fun n hn => needs_self hp _ _ hn) hv hs hk hty'
      simpa [decMessageField, hs] using this
    | many => simp [FieldD.isMessage, hs] at hp
    | map kk =>
      have := sim_map h hl hnew hdec ht hS ho hg (fun n hn => needs_self hp _ _ hn) hv hs
      simpa [decMessageField, hs] using this
  by_cases ha : t.2.any FieldD.isSlice = true
  · rw [if_pos ha]
    have hzu : zero (program f) tuint32 = some (.data (.scalar (.uint32 0))) := (zero_basic h ⟨_, _, rfl, by decide⟩).trans rfl
    refine Sim.pre (exec_var (by decide) hzu) (.cons (by decide) _) ?_
    have hS2 : DecState t (needs t.1 FieldD.isSlice t.2 (t.2.filter FieldD.isMessage)) vs1 ((go!"sliceSize", (⟨tuint32, .data (.scalar (.uint32 0))⟩ : TV)) :: l1) :=
      ⟨hS1.dec.cons (by decide) (by decide) (by decide) _, hS1.env.cons (not_mem_lower hS1.up ⟨_, _, rfl, by decide⟩) _, hS1.up, by rw [lookup_cons_ne (by decide)]; exact hS1.x⟩
    refine Sim.seq (sim_fields (rest := t.2.filter FieldD.isMessage) (fun g _ => isSlice_toField g) (Inv := fun l => ∃ y, l.lookup go!"sliceSize" = some ⟨tUint32, .data y⟩) ?_ t.2 [] rfl vs1 _ hS2
      ⟨_, lookup_cons_self ..⟩ ho1) ?_
    · rintro pre g post vs l old _ hg hp hS ⟨y, hy⟩ ho hv hty'
      have hs : g.shape = .many := by cases hs : g.shape <;> simp_all [FieldD.isSlice]
      refine SimM.yields (SimM.imp (sim_slice h hl hrec hty ht hS ho hg (fun n hn => needs_self hp _ _ hn) hv hs hty' hy) fun a l' hq _ => ⟨hq.1, lookup_data hq.2 hy⟩) ?_
      exact GoGen.typed_slice hl hty (hsup g (List.mem_of_getElem? hg)) ((isSlice_toField g).trans hp) old hty'
    · rintro vs2 l2 ⟨hS2, _, ho2⟩
      exact hmsgs vs2 l2 hS2 ho2
  · rw [if_neg ha]
    refine Sim.seq (a := []) (Q := fun vs' l' => vs' = vs1 ∧ l' = l1) ?_ (b := _) ?_
    · have hnone : GoGen.idx GoGen.isSlice 0 (t.2.map (FieldD.toField f)) = [] := by
        rw [List.eq_nil_iff_forall_not_mem]
        intro i hi
        obtain ⟨g', hg', hp'⟩ := GoGen.idx_of hi
        obtain ⟨g, hg, rfl⟩ := List.mem_map.mp (List.mem_of_getElem? hg')
        exact ha (List.any_eq_true.mpr ⟨g, hg, (isSlice_toField g).symm.trans hp'⟩)
      rw [hnone, GoGen.forFields]
      exact sim_nil ⟨rfl, rfl⟩
    · rintro vs2 l2 ⟨rfl, rfl⟩
      have hnil : t.2.filter FieldD.isSlice = [] := by
        rw [List.filter_eq_nil_iff]
        intro g hg hp
        exact ha (List.any_eq_true.mpr ⟨g, hg, hp⟩)
      rw [hnil]
      exact hmsgs _ _ (hS1.mono fun n hn => by rw [afterValues, hnil]; exact hn) ho1

theorem typedCallees (h : f.Plain) (hl : AnyLaw ver rd) (n : Nat) : TypedCallees f.schema ⟨GoGen.callNew ver f.schema n, GoGen.decode ver rd f.schema n⟩ :=
  ⟨fun m' => (GoGen.safe_callNew (W := True) (O := fun _ => True) h.supported n m' (by simp)).yields.imp fun _ h => (GoGen.oks_iff.mp h).1, GoGen.typed_decode hl h.supported n⟩

/-- `x.decode(d)` for any message type. -/
theorem run_decodeBody (h : f.Plain) (hu : f.Unhidden) (hl : AnyLaw ver rd) {n d : Nat}
    (hrec : DecCallees f (runFn (program f) rd d) ⟨GoGen.callNew ver f.schema n, GoGen.decode ver rd f.schema n⟩) (hnew : MapNew (runFn (program f) rd d))
    (hdec : MapDecoder f rd (runFn (program f) rd d) ⟨GoGen.callNew ver f.schema n, GoGen.decode ver rd f.schema n⟩)
    {m : Nat} {t : Bytes × List FieldD} (ht : f.types[m]? = some t) {fs : List V} (ho : OfFields f.schema (f.schema.fields m) fs) :
    Calls (IsStruct f m) (runFn (program f) rd (d + 1) (decodeDecl t.1 t.2).fn (some (.data (.msg fs))) [.decoder])
      (do let fs ← GoGen.decode ver rd f.schema (n + 1) m fs; pure (.msg fs)) := by
  have hmem := List.mem_of_getElem? ht
  have hfields := schema_fields ht
  have hty := typedCallees h hl n
  have hR : (recv f t).ok = IsStruct f m := by funext v; simp only [recv, IsStruct, hfields]
  rw [← hR]
  refine calls_body (R := recv f t) (st := _) (l := [(go!"x", ⟨.ptr (.name (camel t.1)), .data (.msg fs)⟩), (go!"d", ⟨tDecoder, .decoder⟩)]) rfl rfl rfl rfl ?_
  generalize hl0 : ([(go!"x", ⟨.ptr (.name (camel t.1)), .data (.msg fs)⟩), (go!"d", ⟨tDecoder, .decoder⟩)] : List (Ident × TV)) = l0
  have hb0 : Env f l0 := by
    rw [← hl0]
    refine ((Env.nil f).cons ?_ ?_ _).cons ?_ ?_ _
    all_goals first | decide | exact not_declared h.wf ⟨_, _, rfl, by decide⟩
  have hx0 : l0.lookup go!"x" = some ⟨.ptr (.name (camel t.1)), .data (.msg fs)⟩ := by rw [← hl0, lookup_cons_self]
  have hd0 : l0.lookup go!"d" = some ⟨tDecoder, .decoder⟩ := by rw [← hl0, lookup_cons_ne (by decide), lookup_cons_self]
  have hlow0 : ∀ n, Upper n → l0.lookup n = none := fun n hn => by
    rw [← hl0, lookup_cons_ne (upper_ne hn ⟨_, _, rfl, by decide⟩), lookup_cons_ne (upper_ne hn ⟨_, _, rfl, by decide⟩)]; rfl
  clear hl0
  have he := GoGen.errUsed_ok h.supported m
  rw [hfields] at he
  have hG : ∀ b, (do let fs ← GoGen.decode ver rd f.schema (n + 1) m fs; pure (V.msg fs) : GoGen.D V) b = (do
      if ← GoGen.isNil rd then pure (.msg fs) else do
        let fs ← GoGen.decBody ver rd ⟨GoGen.callNew ver f.schema n, GoGen.decode ver rd f.schema n⟩ (t.2.map (FieldD.toField f))
            ⟨GoGen.idx GoGen.isMsg 0 (t.2.map (FieldD.toField f)), GoGen.idx GoGen.isSlice 0 (t.2.map (FieldD.toField f)), GoGen.idx GoGen.isValue 0 (t.2.map (FieldD.toField f))⟩ fs
        pure (.msg fs) : GoGen.D V) b := by
    intro b
    rw [GoGen.decode, dbind_apply, dbind_apply, dbind_apply]
    cases GoGen.isNil rd b with
    | ok r a =>
      cases a
      · simp only [Bool.false_eq_true, if_false]
        rw [GoGen.GetDecodingFields, GoGen.decLoop_eq _ 0 (GoGen.fields_supported h.supported m)]
        simp only [hfields, he, if_true]
        rfl
      · rfl
    | _ => rfl
  intro s hs
  rw [hG]
  simp only [List.cons_append, List.append_assoc, List.nil_append]
  rw [exec_block_cons]
  have hnil := eval_dNil (lib := lib) (f := f) (call := runFn (program f) rd d) hl (s := s) (by rw [hs]; exact hd0)
  rw [dbind_apply]
  have hcond : isTrue (eval (program f) rd (runFn (program f) rd d) (.call0 (.sel vd go!"Nil"))) s = match GoGen.isNil rd s.inp with
      | .ok r b => .ok b { s with inp := r }
      | _ => .fail .panic := by
    unfold isTrue one
    rw [bind_apply, bind_apply, hnil]
    cases GoGen.isNil rd s.inp <;> rfl
  rw [exec, bind_apply, hcond]
  cases hi : GoGen.isNil rd s.inp with
  | ok r b =>
    cases b
    · simp only [Bool.false_eq_true, if_false, pure_apply]
      rw [hfields] at ho
      have key : Body (recv f t) f rd (runFn (program f) rd d)
          ((if !t.2.isEmpty then [.var go!"err" terror] else []) ++
            (((t.2.filter FieldD.isValue).flatMap fun g => GoText.decValue (camel g.name) g.kind (camel g.type)) ++
              ((if t.2.any FieldD.isSlice then [.var go!"sliceSize" tuint32] else []) ++
                (((t.2.filter FieldD.isSlice).flatMap fun g => GoText.decSlice (camel g.name) g.kind (manyTy g.kind g.type) (camel g.type)) ++
                  ((t.2.filter FieldD.isMessage).flatMap (decMessageField t.1)))) ++ [.ret1 vnil])) l0
          (do let fs ← GoGen.decBody ver rd ⟨GoGen.callNew ver f.schema n, GoGen.decode ver rd f.schema n⟩ (t.2.map (FieldD.toField f))
                ⟨GoGen.idx GoGen.isMsg 0 (t.2.map (FieldD.toField f)), GoGen.idx GoGen.isSlice 0 (t.2.map (FieldD.toField f)),
                  GoGen.idx GoGen.isValue 0 (t.2.map (FieldD.toField f))⟩ fs
              pure (.msg fs)) := by
        by_cases hemp : t.2 = []
        · rw [hemp]
          intro s hs
          refine ⟨l0, hx0, ?_⟩
          show exec (program f) rd (runFn (program f) rd d) (block [.ret1 vnil]) s = _
          rw [exec_block_cons, exec, bind_ok (nil_env hb0.base h hs), ← hs]
          rfl
        · rw [if_pos (by simpa using hemp)]
          have hze : zero (program f) terror = some (.err none) := (zero_basic h ⟨_, _, rfl, by decide⟩).trans rfl
          refine Body.pre (exec_var (by decide) hze) (body_fields h hu hl hrec hty hnew hdec hmem ⟨⟨hb0.base.cons (by decide) _, ?_, lookup_cons_self ..⟩,
            ?_, needs_upper h.wf hmem (fun _ h => h) afterValues_mem, ?_⟩ ho)
          · rw [lookup_cons_ne (by decide)]; exact hd0
          · intro n hn
            have hup := needs_upper h.wf hmem (fun _ h => h) afterValues_mem n hn
            rw [lookup_cons_ne (upper_ne hup ⟨_, _, rfl, by decide⟩)]
            exact hlow0 n hup
          · rw [lookup_cons_ne (by decide)]; exact hx0
      have h1 := key { s with inp := r } hs
      simp only [List.append_assoc] at h1
      exact h1
    · simp only [if_true]
      have : exec (program f) rd (runFn (program f) rd d) (block [.ret1 vnil]) { s with inp := r } = .ok (.ret [⟨tNil, .nil⟩]) { s with inp := r } := by
        rw [exec_block_cons, exec, bind_ok (nil_env (s := { s with inp := r }) hb0.base h hs)]
        rfl
      rw [inBlock_ok this rfl]
      exact ⟨l0, hx0, by rw [← hs]⟩
  | panic => rfl
  | err e =>
    unfold GoGen.isNil at hi
    cases hr : rd .nil s.inp with
    | panic => rw [hr] at hi; cases hi
    | ok p =>
      obtain ⟨r, o⟩ := p
      cases o with
      | error e' => exact absurd hr hl.nilErr
      | _ => rw [hr] at hi; cases hi
  | _ => trivial

/-- The zero value of a field. -/
theorem zero_field (h : f.Plain) {t : Bytes × List FieldD} (ht : t ∈ f.types) {g : FieldD} (hg : g ∈ t.2) :
    zero (program f) (fieldTy t.1 g) = some (.data (g.toField f).fresh) := by
  have hwf := (h.wf.typeWf ht).fields g hg
  have hsup := supported_field h ht hg
  cases hs : g.shape with
  | one r =>
    have hto : g.toField f = .one g.kind (f.ref g.kind g.type) r := by simp [FieldD.toField, hs]
    have hfty : fieldTy t.1 g = elemTy g.kind (camel g.type) := by simp [fieldTy, hs]
    rw [hto, hfty]
    by_cases he : g.kind = .enum
    · have hen := (h.closed t ht g hg).2 he
      rw [he]
      show zero (program f) (.name (camel g.type)) = _
      unfold zero
      simp only
      rw [(find_enum h hen).1]
      rfl
    · by_cases hm : g.kind = .message
      · rw [hm]; rfl
      · rw [elemTy_scalar hm he, (zero_scalar h ⟨hm, hwf.kind⟩ he 0).1]
        have h1 := hm
        have h2 := he
        have h3 := hwf.kind
        cases hk : g.kind <;> simp_all [GoGen.FindElem, GoGen.typeLUT, GoGen.zero, Field.fresh]
  | many =>
    have hto : g.toField f = .many g.kind (f.ref g.kind g.type) := by simp [FieldD.toField, hs]
    have hfty : fieldTy t.1 g = .slice (manyTy g.kind g.type) := by simp [fieldTy, hs]
    rw [hto] at hsup ⊢
    simp only [Field.GoSupported] at hsup
    have hm : manyTy g.kind g.type = elemTy g.kind (camel g.type) := by
      unfold manyTy
      split
      · rename_i hk; exact absurd hk hsup.2.1
      · rfl
    rw [hfty, hm]
    unfold zero
    simp only [(zero_elem h hsup (camel g.type) 0).2, if_false]
    rfl
  | map kk =>
    have hto : g.toField f = .map kk g.kind (f.ref g.kind g.type) := by simp [FieldD.toField, hs]
    have hfty : fieldTy t.1 g = .name (mapName t.1 g) := by simp [fieldTy, hs]
    rw [hto, hfty]
    unfold zero
    simp only
    rw [find_mapType h ht hg hs]
    rfl

theorem zeros_fields (h : f.Plain) {t : Bytes × List FieldD} (ht : t ∈ f.types) : ∀ gs : List FieldD, (∀ g ∈ gs, g ∈ t.2) →
    zeros (program f) (gs.map fun g => (camel g.name, fieldTy t.1 g)) = some ((gs.map (FieldD.toField f)).map Field.fresh)
  | [], _ => rfl
  | g :: gs, hg => by
    simp only [List.map_cons, zeros, zero_field h ht (hg g (by simp)), zeros_fields h ht gs fun g' h' => hg g' (by simp [h'])]

theorem newElements_cons (g : FieldD) (gs : List FieldD) : newElements (g :: gs) =
    if (ver : GoGen.Version).allocates ∧ g.Kind = .message ∧ g.IsRepeated = false then (camel g.name, go!"New" ++ camel g.type) :: newElements gs else newElements gs := by
  cases lib with
  | v1 =>
    by_cases hc : g.Kind = .message ∧ g.IsRepeated = false
    · rw [if_pos ⟨rfl, hc⟩]
      simp only [newElements, Lib.pick]
      rw [List.filter_cons_of_pos (by simpa using hc)]
      rfl
    · rw [if_neg (fun h => hc h.2)]
      simp only [newElements, Lib.pick]
      rw [List.filter_cons_of_neg (by simpa using hc)]
  | v2 =>
    rw [if_neg (fun h => by cases h.1)]
    rfl

/-- One element of a new struct. -/
theorem fill_step (h : f.Plain) {t : Bytes × List FieldD} (ht : t ∈ f.types) {new : Nat → Option (List V)}
    (hnew : ∀ m t vs s, f.types[m]? = some t → new m = some vs → call (newFunc (camel t.1) (newElements t.2)).fn none [] s = .ok (none, [⟨.ptr (.name (camel t.1)), .data (.msg vs)⟩]) s)
    {s : St} (hs : s.locals = []) {g : FieldD} {post pre : List FieldD} {us : List V} {v : V} (hpre : t.2 = pre ++ g :: post) (hlen : us.length = pre.length)
    (hv1 : GoGen.newField ver new (g.toField f) = some v) :
    fill (program f) rd call (newElements (g :: post)) ⟨.ptr (.name (camel t.1)), .data (.msg (us ++ ((g :: post).map (FieldD.toField f)).map Field.fresh))⟩ s =
      fill (program f) rd call (newElements post) ⟨.ptr (.name (camel t.1)), .data (.msg (us ++ [v] ++ (post.map (FieldD.toField f)).map Field.fresh))⟩ s := by
  have hg : t.2[pre.length]? = some g := by rw [hpre]; simp
  have hgm := List.mem_of_getElem? hg
  rw [newElements_cons, List.append_assoc]
  by_cases hc : (ver : GoGen.Version).allocates ∧ g.Kind = .message ∧ g.IsRepeated = false
  · rw [if_pos hc]
    obtain ⟨ha, hk, hr⟩ := hc
    obtain ⟨r, hsh⟩ : ∃ r, g.shape = .one r := by cases hsh : g.shape <;> simp [FieldD.IsRepeated, hsh] at hr ⊢
    have hk : g.kind = .message := by simpa [FieldD.Kind, hsh] using hk
    have hto : g.toField f = .one .message (f.ref g.kind g.type) r := by simp [FieldD.toField, hsh, hk]
    obtain ⟨t', ht', hn⟩ := type_ref h ht hgm hk
    have hcard : (Field.one .message (f.ref g.kind g.type) r).Cardinality ≠ .repeated := by cases r <;> simp [Field.Cardinality]
    rw [hto, GoGen.newField, if_pos ⟨ha, rfl, hcard⟩] at hv1
    simp only [Option.map_eq_some_iff] at hv1
    obtain ⟨ws, hw, rfl⟩ := hv1
    have hcall := hnew _ t' ws s ht' hw
    have hap : apply (program f) rd call (.name (go!"New" ++ camel g.type)) [] s = .ok ([⟨.ptr (.name (camel t'.1)), .data (.msg ws)⟩], none) s := by
      rw [← hn, apply, find_new h (List.mem_of_getElem? ht')]
      have : arguments (program f) (newFunc (camel t'.1) (newElements t'.2)).fn.params [] = some [] := rfl
      simp only [this]
      rw [bind_ok (need_some _ s), bind_ok hcall]
      rfl
    have hfi := fieldIndex_eq (name := fun g : FieldD => camel g.name) (ty := fieldTy t.1) (h.fields t ht) hg
    have hfty : fieldTy t.1 g = .ptr (.name (camel t'.1)) := by simp [fieldTy, hsh, hk, elemTy, hn]
    have hset : setField (program f) ⟨.ptr (.name (camel t.1)), .data (.msg (us ++ ((g :: post).map (FieldD.toField f)).map Field.fresh))⟩ (camel g.name)
        ⟨.ptr (.name (camel t'.1)), .data (.msg ws)⟩ s =
        .ok ⟨.ptr (.name (camel t.1)), .data (.msg (us ++ (.msg ws :: (post.map (FieldD.toField f)).map Field.fresh)))⟩ s := by
      have hass : assignTo (program f) (fieldTy t.1 g) ⟨.ptr (.name (camel t'.1)), .data (.msg ws)⟩ = some (.data (.msg ws)) := by
        rw [hfty]; exact assignTo_same _ ⟨.ptr (.name (camel t'.1)), .data (.msg ws)⟩
      simp only [setField, structOf, find_struct h ht, hfi, bind_apply, need_some]
      simp only [hass, need_some, pure_apply, List.map_cons]
      rw [List.set_append_right _ _ (by omega), hlen, Nat.sub_self, List.set_cons_zero]
    have hget : GoRun.get (go!"New" ++ camel g.type) s = .ok none s := by simp [GoRun.get, hs]
    rw [fill, bind_ok hget]
    simp only
    rw [bind_ok (a := (⟨.ptr (.name (camel t'.1)), .data (.msg ws)⟩ : TV)) (s' := s) (one_ok ?_), bind_ok hset]
    · rfl
    · rw [bind_ok hap]; rfl
  · rw [if_neg hc]
    have hc' : ¬ ((ver : GoGen.Version).allocates ∧ (g.toField f).Kind = .message ∧ (g.toField f).Cardinality ≠ .repeated) := by
      intro ⟨h1, h2, h3⟩
      refine hc ⟨h1, ?_⟩
      cases hsh : g.shape <;> simp_all [FieldD.toField, FieldD.Kind, FieldD.IsRepeated, Field.Kind, Field.Cardinality]
    unfold GoGen.newField at hv1
    rw [if_neg hc'] at hv1
    obtain ⟨ty, h1, h2⟩ := GoGen.zero_fresh (supported_field h ht hgm)
    rw [h1] at hv1
    simp only [Option.map_some, Option.some.injEq] at hv1
    rw [← hv1, h2]
    rfl

/-- The elements of a new struct. -/
theorem fill_new (h : f.Plain) {t : Bytes × List FieldD} (ht : t ∈ f.types) {new : Nat → Option (List V)}
    (hnew : ∀ m t vs s, f.types[m]? = some t → new m = some vs → call (newFunc (camel t.1) (newElements t.2)).fn none [] s = .ok (none, [⟨.ptr (.name (camel t.1)), .data (.msg vs)⟩]) s)
    {s : St} (hs : s.locals = []) : ∀ (post pre : List FieldD) (us vs : List V), t.2 = pre ++ post → us.length = pre.length →
    GoGen.newFields ver new (post.map (FieldD.toField f)) = some vs →
    fill (program f) rd call (newElements post) ⟨.ptr (.name (camel t.1)), .data (.msg (us ++ (post.map (FieldD.toField f)).map Field.fresh))⟩ s =
      .ok ⟨.ptr (.name (camel t.1)), .data (.msg (us ++ vs))⟩ s := by
  intro post
  induction post with
  | nil =>
    intro pre us vs _ _ hv
    simp only [List.map_nil, GoGen.newFields, Option.some.injEq] at hv
    subst hv
    have : newElements ([] : List FieldD) = [] := by cases lib <;> rfl
    rw [this]
    rfl
  | cons g post ih =>
    intro pre us vs hpre hlen hv
    simp only [List.map_cons, GoGen.newFields, Option.bind_eq_bind, Option.bind_eq_some_iff, Option.some.injEq] at hv
    obtain ⟨v, hv1, vs', hv2, rfl⟩ := hv
    have hgo := ih (pre ++ [g]) (us ++ [v]) vs' (by simp [hpre]) (by simp [hlen]) hv2
    rw [fill_step h ht hnew hs hpre hlen hv1, hgo, List.append_assoc]
    rfl

/-- If one of them is not made. -/
theorem fill_new_none (h : f.Plain) {t : Bytes × List FieldD} (ht : t ∈ f.types) {new : Nat → Option (List V)}
    (hnew : ∀ m t vs s, f.types[m]? = some t → new m = some vs → call (newFunc (camel t.1) (newElements t.2)).fn none [] s = .ok (none, [⟨.ptr (.name (camel t.1)), .data (.msg vs)⟩]) s)
    (hnone : ∀ m t s, f.types[m]? = some t → new m = none → call (newFunc (camel t.1) (newElements t.2)).fn none [] s = .fail .overflow)
    {s : St} (hs : s.locals = []) : ∀ (post pre : List FieldD) (us : List V), t.2 = pre ++ post → us.length = pre.length →
    GoGen.newFields ver new (post.map (FieldD.toField f)) = none →
    fill (program f) rd call (newElements post) ⟨.ptr (.name (camel t.1)), .data (.msg (us ++ (post.map (FieldD.toField f)).map Field.fresh))⟩ s = .fail .overflow := by
  intro post
  induction post with
  | nil => intro pre us _ _ hv; cases hv
  | cons g post ih =>
    intro pre us hpre hlen hv
    cases hv1 : GoGen.newField ver new (g.toField f) with
    | some v =>
      rw [fill_step h ht hnew hs hpre hlen hv1]
      refine ih (pre ++ [g]) (us ++ [v]) (by simp [hpre]) (by simp [hlen]) ?_
      cases hv2 : GoGen.newFields ver new (post.map (FieldD.toField f)) with
      | none => rfl
      | some vs => simp [GoGen.newFields, hv1, hv2] at hv
    | none =>
      have hgm : g ∈ t.2 := by rw [hpre]; simp
      rw [newElements_cons]
      by_cases hc : (ver : GoGen.Version).allocates ∧ g.Kind = .message ∧ g.IsRepeated = false
      · rw [if_pos hc]
        obtain ⟨ha, hk, hr⟩ := hc
        obtain ⟨r, hsh⟩ : ∃ r, g.shape = .one r := by cases hsh : g.shape <;> simp [FieldD.IsRepeated, hsh] at hr ⊢
        have hk : g.kind = .message := by simpa [FieldD.Kind, hsh] using hk
        have hto : g.toField f = .one .message (f.ref g.kind g.type) r := by simp [FieldD.toField, hsh, hk]
        obtain ⟨t', ht', hn⟩ := type_ref h ht hgm hk
        have hcard : (Field.one .message (f.ref g.kind g.type) r).Cardinality ≠ .repeated := by cases r <;> simp [Field.Cardinality]
        rw [hto, GoGen.newField, if_pos ⟨ha, rfl, hcard⟩] at hv1
        simp only [Option.map_eq_none_iff] at hv1
        have hcall := hnone _ t' s ht' hv1
        have hap : apply (program f) rd call (.name (go!"New" ++ camel g.type)) [] s = .fail .overflow := by
          rw [← hn, apply, find_new h (List.mem_of_getElem? ht')]
          have : arguments (program f) (newFunc (camel t'.1) (newElements t'.2)).fn.params [] = some [] := rfl
          simp only [this]
          rw [bind_ok (need_some _ s), bind_apply, hcall]
        have hget : GoRun.get (go!"New" ++ camel g.type) s = .ok none s := by simp [GoRun.get, hs]
        rw [fill, bind_ok hget]
        simp only
        simp only [bind_apply, one, hap]
      · exfalso
        have hc' : ¬ ((ver : GoGen.Version).allocates ∧ (g.toField f).Kind = .message ∧ (g.toField f).Cardinality ≠ .repeated) := by
          intro ⟨h1, h2, h3⟩
          refine hc ⟨h1, ?_⟩
          cases hsh : g.shape <;> simp_all [FieldD.toField, FieldD.Kind, FieldD.IsRepeated, Field.Kind, Field.Cardinality]
        unfold GoGen.newField at hv1
        rw [if_neg hc'] at hv1
        obtain ⟨ty, h1, h2⟩ := GoGen.zero_fresh (supported_field h ht hgm)
        rw [h1] at hv1
        cases hv1

/-- `NewT()` for every message type. -/
theorem run_new (h : f.Plain) : ∀ (n d m : Nat) (t : Bytes × List FieldD) (vs : List V) (s : St), n ≤ d → f.types[m]? = some t → GoGen.New ver f.schema n m = some vs →
    runFn (program f) rd d (newFunc (camel t.1) (newElements t.2)).fn none [] s = .ok (none, [⟨.ptr (.name (camel t.1)), .data (.msg vs)⟩]) s := by
  intro n
  induction n with
  | zero => intro d m t vs s _ _ hv; cases hv
  | succ n ih =>
    intro d m t vs s hd ht hv
    obtain ⟨d, rfl⟩ : ∃ e, d = e + 1 := ⟨d - 1, by omega⟩
    have hmem := List.mem_of_getElem? ht
    rw [GoGen.New, schema_fields ht] at hv
    have hev : ∀ s : St, s.locals = [] → exec (program f) rd (runFn (program f) rd d) (block [.ret1 (.new (camel t.1) (newElements t.2))]) s =
        .ok (.ret [⟨.ptr (.name (camel t.1)), .data (.msg vs)⟩]) s := by
      intro s hs
      have hf := fill_new (rd := rd) h hmem (fun m t vs s ht hv => ih d m t vs s (by omega) ht hv) hs t.2 [] [] vs rfl rfl hv
      simp only [List.nil_append] at hf
      rw [exec_block_cons, exec, bind_apply, eval, find_struct h hmem, bind_ok (need_some _ s), zeros_fields h hmem t.2 (fun _ h => h), bind_ok (need_some _ s), bind_ok hf]
      rfl
    rw [runFn]
    simp only [newFunc, Decl.fn, frame]
    rw [hev _ rfl]
    have ha := assignTo_same (program f) ⟨.ptr (.name (camel t.1)), .data (.msg vs)⟩
    simp only at ha
    simp only [results, ha, Option.map_some, receiver]

/-- `NewT()` exceeds the call stack exactly if the model does. -/
theorem run_new_none (h : f.Plain) : ∀ (n m : Nat) (t : Bytes × List FieldD) (s : St), f.types[m]? = some t → GoGen.New ver f.schema n m = none →
    runFn (program f) rd n (newFunc (camel t.1) (newElements t.2)).fn none [] s = .fail .overflow := by
  intro n
  induction n with
  | zero => intro m t s _ _; rfl
  | succ n ih =>
    intro m t s ht hv
    have hmem := List.mem_of_getElem? ht
    rw [GoGen.New, schema_fields ht] at hv
    have hev : ∀ s : St, s.locals = [] → exec (program f) rd (runFn (program f) rd n) (block [.ret1 (.new (camel t.1) (newElements t.2))]) s = .fail .overflow := by
      intro s hs
      have hf := fill_new_none (rd := rd) h hmem (fun m t vs s ht hv => run_new h n n m t vs s (Nat.le_refl _) ht hv) (fun m t s ht hv => ih m t s ht hv) hs t.2 [] [] rfl rfl hv
      simp only [List.nil_append] at hf
      rw [exec_block_cons, exec, bind_apply, eval, find_struct h hmem, bind_ok (need_some _ s), zeros_fields h hmem t.2 (fun _ h => h), bind_ok (need_some _ s), bind_apply, hf]
    rw [runFn]
    simp only [newFunc, Decl.fn, frame]
    rw [hev _ rfl]

/-- All functions of the program that decoding calls. -/
theorem run_callees (h : f.Plain) (hu : f.Unhidden) (hl : AnyLaw ver rd) : ∀ (n d : Nat), 2 * n ≤ d →
    DecCallees f (runFn (program f) rd d) ⟨GoGen.callNew ver f.schema n, GoGen.decode ver rd f.schema n⟩ := by
  intro n
  induction n with
  | zero =>
    intro d _
    refine ⟨fun m t ht => .inl ?_, fun m t fs ht ho s => ?_⟩
    · funext b; rfl
    · trivial
  | succ n ih =>
    intro d hd
    obtain ⟨d, rfl⟩ : ∃ e, d = e + 2 := ⟨d - 2, by omega⟩
    refine ⟨fun m t ht => ?_, fun m t fs ht ho => ?_⟩
    · cases hN : GoGen.New ver f.schema (n + 1) m with
      | none =>
        refine .inl ?_
        funext b
        show GoGen.callNew ver f.schema (n + 1) m b = _
        unfold GoGen.callNew
        rw [hN]
        rfl
      | some vs =>
        refine .inr ⟨vs, ?_, (GoGen.oks_iff.mp (GoGen.new_ok (W := True) h.supported _ _ _ hN)).1, fun s => run_new h (n + 1) _ m t vs s (by omega) ht hN⟩
        funext b
        show GoGen.callNew ver f.schema (n + 1) m b = _
        unfold GoGen.callNew
        rw [hN]
        rfl
    · exact run_decodeBody h hu hl (ih (d + 1) (by omega)) (run_mapNew d) (run_mapDecode h hu hl (ih d (by omega)) (typedCallees h hl n)) ht ho

end

end GoRun
