import Verif.Text.GoRunEncode

/-!
# Running the generated `Encode`: maps, messages, all types
-/

namespace GoRun

open Utils Text GoAst GoText Gen Spec

variable {lib : Lib}

section
variable {f : FileD} {rd : GoGen.Codec} {call : Callee}

/-! ## Functions -/

theorem nil_env {l : List (Ident × TV)} (hl : Base l) (h : f.Plain) {s : St} (hs : s.locals = l) :
    eval (program f) rd call vnil s = .ok [⟨tNil, .nil⟩] s := by
  subst hs
  have hn : s.locals.lookup go!"nil" = none := hl _ (by simp [reserved])
  have hf : findErr (program f) go!"nil" = false := findErr_none (not_declared h.wf ⟨_, _, rfl, by decide⟩)
  rw [vnil, eval, bind_apply]
  simp [GoRun.get, hn, hf, pure_apply]

/-- `e == nil` -/
theorem eval_isNil {l : List (Ident × TV)} (hl : Base l) (h : f.Plain) {s : St} (hs : s.locals = l) {e : Expr} {v : TV} {b : Bool}
    (he : eval (program f) rd call e s = .ok [v] s) (hb : equal v ⟨tNil, .nil⟩ = some b) :
    eval (program f) rd call (.eq e vnil) s = .ok [⟨tBool, .data (.scalar (.bool b))⟩] s := by
  rw [eval, bind_ok (one_ok he), bind_ok (one_ok (nil_env hl h hs)), hb]; rfl

theorem writes_ite {l : List (Ident × TV)} {c : Expr} {a b : Stmt} {tight v : Bool} {is : List Item}
    (hc : ∀ s, s.locals = l → eval (program f) rd call c s = .ok [⟨tBool, .data (.scalar (.bool v))⟩] s)
    (hb : Writes f rd call (if v = true then a else b) l is) : Writes f rd call (.ite c a b tight) l is := by
  intro s hs
  rw [exec, bind_ok (isTrue_ok (hc s hs))]
  cases v with
  | true => exact inBlock_ok (hb s hs) rfl
  | false => exact inBlock_ok (hb s hs) rfl

/-- A method that writes and keeps its receiver. -/
theorem run_writes {d : Nat} {fn : Func} {x : Ident} {t : Ty} {v : Value} {args : List Value} {l : List (Ident × TV)} {is : List Item}
    (hr : fn.recv = some (x, t)) (hres : fn.result = none) (hl : (x, ⟨t, v⟩) :: List.zipWith (fun p a => (p.1, ⟨p.2, a⟩)) fn.params args = l)
    (hb : Writes f rd (runFn (program f) rd d) fn.body l is) (s : St) :
    runFn (program f) rd (d + 1) fn (some v) args s = .ok (some v, []) { s with out := s.out ++ is } := by
  have hframe : frame fn (some v) args = some l := by subst hl; simp [frame, hr]
  have hrecv : receiver fn l = some v := by subst hl; simp [receiver, hr]
  rw [runFn]
  simp only [hframe]
  rw [hb { s with locals := l } rfl]
  simp only [hres, results, hrecv]

/-- The local variables at the start of a method `Encode`. -/
theorem encEnv_start (h : f.Plain) (v : TV) : EncEnv f [(go!"x", v), (go!"b", ⟨tBuffer, .buffer⟩)] where
  env := ((Env.nil f).cons (by decide) (not_declared h.wf ⟨_, _, rfl, by decide⟩) _).cons (by decide) (not_declared h.wf ⟨_, _, rfl, by decide⟩) _
  b := by rw [lookup_cons_ne (by decide), lookup_cons_self]

/-! ## Maps -/

/-- `polyglot.Encoder(b).Map(e, kk, k)` -/
theorem writes_header {l : List (Ident × TV)} (he : EncEnv f l) {e : Expr} {v : TV} {n : BitVec 32} {kk k : PKind} (hkk : kk ≠ .group) (hk : k ≠ .group)
    (hv : ∀ s, s.locals = l → eval (program f) rd call e s = .ok [v] s)
    (hn : encoderCall go!"Map" [v, ⟨tKind, .kind kk.announced⟩, ⟨tKind, .kind k.announced⟩] = some (.map n kk.announced k.announced)) :
    Writes f rd call (.expr (.call3 (.sel encoder go!"Map") e (kindConst kk) (kindConst k))) l [.map n kk.announced k.announced] := by
  refine writes_expr fun s hs => ⟨[⟨tEncoder, .encoder⟩], ?_⟩
  exact eval_call3 (r := ([⟨tEncoder, .encoder⟩], none)) (target_method (isPackage_false (by simp [encoder])) (eval_encoder he hs))
    (hv s hs) (eval_kindConst he.env.base hs hkk) (eval_kindConst he.env.base hs hk) (apply_encoder hn s) (storeReceiver_none _ _)

/-- The key or value of an entry. -/
theorem writes_entry (h : f.Plain) {l : List (Ident × TV)} (he : EncEnv f l) {n : Nat} (hc : EncCallee f call n) {t : Bytes × List FieldD} (ht : t ∈ f.types)
    {g : FieldD} (hg : g ∈ t.2) {m : Ident} (hm : m ≠ go!"polyglot") {v : V} (hv : v.OfField f.schema (.one g.kind (f.ref g.kind g.type) false)) (hd : v.depth ≤ n)
    (hl : l.lookup m = some ⟨elemTy g.kind (camel g.type), .data v⟩) :
    Writes f rd call (encEntry (.var m) g.kind) l (v.items f.schema (.one g.kind (f.ref g.kind g.type) false)) := by
  by_cases hkm : g.kind = .message
  · rw [encEntry, if_pos hkm]
    have := writes_message (rd := rd) h he hc ht hg hkm (v := v) (e := .var m) (by rw [hkm] at hv ⊢; exact hv) hd
      (place_var hm (by rw [hl, hkm]; rfl))
    rw [hkm] at this ⊢
    exact this
  · rw [encEntry, if_neg hkm]
    obtain ⟨x, rfl⟩ : ∃ x, v = .scalar x := by
      cases v <;> simp_all [V.OfField]
    simp only [V.OfField] at hv
    refine writes_expr fun s hs => ⟨[⟨tEncoder, .encoder⟩], ?_⟩
    exact eval_scalar (rd := rd) (call := call) h he.env.base (a := .var m) (ty := camel g.type) hv hs (e := encoder) (by simp [encoder]) (eval_encoder he hs)
      (eval_local (by rw [hs, hl]))

theorem writes_key (h : f.Plain) {l : List (Ident × TV)} (he : EncEnv f l) {m : Ident} {kk : PKind} {x : Scalar} (hx : x.OfKind kk) (hk : kk ≠ .enum)
    (hl : l.lookup m = some ⟨scalarTy kk, .data (.scalar x)⟩) : Writes f rd call (encEntry (.var m) kk) l [x.item] := by
  have hkm : kk ≠ .message := by rintro rfl; cases x <;> exact hx
  rw [encEntry, if_neg hkm]
  refine writes_expr fun s hs => ⟨[⟨tEncoder, .encoder⟩], ?_⟩
  have hm : elemTy kk [] = scalarTy kk := by cases kk <;> simp_all [elemTy]
  exact eval_scalar (rd := rd) (call := call) h he.env.base (a := .var m) (ty := []) hx hs (e := encoder) (by simp [encoder]) (eval_encoder he hs)
      (eval_local (by rw [hs, hl, hm]))

/-- The callee encodes maps with values of depth up to `n`. -/
def MapCallee [Lib] (f : FileD) (call : Callee) (n : Nat) : Prop :=
  ∀ t ∈ f.types, ∀ g ∈ t.2, ∀ kk, g.shape = .map kk → ∀ v : V, v.OfField f.schema (g.toField f) → v.depth ≤ n → ∀ s,
    call (encodeMapFunc (mapName t.1 g) kk g.kind).fn (some (.data v)) [.buffer] s =
      .ok (some (.data v), []) { s with out := s.out ++ v.items f.schema (g.toField f) }

theorem zipWith_zip {α β γ : Type} (r : α → β → γ) : ∀ (as : List α) (bs : List β), List.zipWith r as bs = (as.zip bs).map fun p => r p.1 p.2
  | [], _ => by simp
  | _ :: _, [] => by simp
  | a :: as, b :: bs => by rw [List.zipWith_cons_cons, List.zip_cons_cons, List.map_cons, zipWith_zip r as bs]

theorem run_map (h : f.Plain) {d n : Nat} (hc : EncCallee f (runFn (program f) rd d) n) : MapCallee f (runFn (program f) rd (d + 1)) n := by
  intro t ht g hg kk hs v hv hd s
  have hwf := (h.wf.typeWf ht).fields g hg
  have hkk := hwf.key kk hs
  have hto : g.toField f = .map kk g.kind (f.ref g.kind g.type) := by simp [FieldD.toField, hs]
  rw [hto] at hv ⊢
  have he := encEnv_start (f := f) h ⟨.name (mapName t.1 g), .data v⟩
  refine run_writes (x := go!"x") (t := .name (mapName t.1 g)) (l := [(go!"x", ⟨.name (mapName t.1 g), .data v⟩), (go!"b", ⟨tBuffer, .buffer⟩)]) rfl rfl rfl (writes_one ?_) s
  cases v with
  | nilMap =>
    refine writes_ite (v := true) (fun s hs => eval_isNil he.env.base h hs (eval_local (by rw [hs, lookup_cons_self])) rfl) ?_
    rw [if_pos rfl]
    refine writes_one (writes_header he (v := ⟨tConst, .const 0⟩) (n := 0) ?_ hwf.kind (fun s hs => ?_) ?_)
    · rintro rfl; simp [IsKey] at hkk
    · rw [eval]; rfl
    · simp [encoderCall]
  | map ks vs =>
    simp only [V.OfField] at hv
    obtain ⟨hlen, hlt, hnd, hks, hvs⟩ := hv
    refine writes_ite (v := false) (fun s hs => eval_isNil he.env.base h hs (eval_local (by rw [hs, lookup_cons_self])) rfl) ?_
    rw [if_neg (by decide), V.items, itemsM_flatMap, show ∀ a : Stmt, ∀ b, [a, b] = [a] ++ [b] from fun _ _ => rfl]
    refine writes_append (i := [_]) (writes_one (writes_header he (v := ⟨tUint32, .data (.scalar (.uint32 (BitVec.ofNat 32 vs.length)))⟩) ?_ hwf.kind (fun s hs => ?_) ?_)) (writes_one ?_)
    · rintro rfl; simp [IsKey] at hkk
    · refine eval_builtin h he.env.base hs (.inl rfl) (v := ⟨tInt, .int vs.length⟩)
        (eval_builtin h he.env.base hs (.inr rfl) (v := ⟨.name (mapName t.1 g), .data (.map ks vs)⟩) (eval_local (by rw [hs, lookup_cons_self])) ?_) ?_
      · simp [builtin]
      · simp [builtin]
    · simp [encoderCall]
    · intro s hs'
      rw [exec, vx, bind_ok (one_ok (eval_local (by rw [hs', lookup_cons_self])))]
      have hr : ranged (program f) go!"k" go!"v" ⟨.name (mapName t.1 g), .data (.map ks vs)⟩ =
          some ((ks.zip vs).map fun p => [(go!"k", ⟨scalarTy kk, .data (.scalar p.1)⟩), (go!"v", ⟨elemTy g.kind (camel g.type), .data p.2⟩)]) := by
        simp only [ranged, find_mapType h ht hg hs]
        exact congrArg some (zipWith_zip _ ks vs)
      rw [hr, bind_ok (need_some _ s)]
      refine rounds_write (ks.zip vs) ?_ s hs'
      intro p hp
      have hpk := hks p.1 (List.of_mem_zip hp).1
      have hpv := (GoGen.ofElems_iff ..).mp hvs p.2 (List.of_mem_zip hp).2
      have hpd : p.2.depth ≤ n := Nat.le_trans (depth_le_depths (List.of_mem_zip hp).2) (by simpa [V.depth] using hd)
      refine round_two (by decide) (by decide) ?_
      have he' := (he.cons h (n := go!"k") (.inr rfl) ⟨scalarTy kk, .data (.scalar p.1)⟩).cons h (n := go!"v") (.inl rfl) ⟨elemTy g.kind (camel g.type), .data p.2⟩
      rw [show ∀ a : Stmt, ∀ b, [a, b] = [a] ++ [b] from fun _ _ => rfl]
      refine writes_append (i := [_]) (writes_one (writes_key h he' hpk ?_ ?_)) (writes_one (writes_entry h he' hc ht hg (by decide) hpv hpd ?_))
      · rintro rfl; simp [IsKey] at hkk
      · rw [lookup_cons_ne (by decide), lookup_cons_self]
      · rw [lookup_cons_self]
  | _ => simp [V.OfField] at hv

/-! ## Messages -/

theorem filter_zip {α β : Type} (p : α → Bool) : ∀ (as : List α) (bs : List β), as.length = bs.length →
    as.filter p = ((as.zip bs).filter fun q => p q.1).map (·.1)
  | [], _, _ => by simp
  | a :: as, b :: bs, h => by
    simp only [List.length_cons, Nat.add_right_cancel_iff] at h
    rw [List.zip_cons_cons, List.filter_cons, List.filter_cons]
    cases hp : p a <;> simp [filter_zip p as bs h]

/-- The fields of a group with their values. -/
theorem itemsOf_zip (S : Schema) (grp : Group) (p : FieldD → Bool) : ∀ (fs : List FieldD) (vs : List V), (∀ g ∈ fs, (g.toField f).group = grp ↔ p g = true) →
    itemsOf S grp (fs.map (FieldD.toField f)) vs = ((fs.zip vs).filter fun q => p q.1).flatMap fun q => q.2.items S (q.1.toField f)
  | [], vs, _ => by cases vs <;> simp [itemsOf]
  | _ :: _, [], _ => by simp [itemsOf]
  | g :: fs, v :: vs, h => by
    have hg := h g (List.mem_cons_self ..)
    rw [List.map_cons, itemsOf, itemsOf_zip S grp p fs vs fun g hg => h g (List.mem_cons_of_mem _ hg), List.zip_cons_cons, List.filter_cons]
    by_cases hp : p g = true
    · rw [if_pos (hg.mpr hp)]; simp [hp]
    · rw [if_neg (fun he => hp (hg.mp he))]; simp [hp]

theorem group_value (g : FieldD) : (g.toField f).group = .scalars ↔ g.isValue = true := by
  cases hs : g.shape <;> simp only [FieldD.toField, FieldD.isValue, hs, Field.group] <;> cases hk : g.kind <;> simp
theorem group_slice (g : FieldD) : (g.toField f).group = .repeateds ↔ g.isSlice = true := by
  cases hs : g.shape <;> simp only [FieldD.toField, FieldD.isSlice, hs, Field.group] <;> cases hk : g.kind <;> simp
theorem group_message (g : FieldD) : (g.toField f).group = .nesteds ↔ g.isMessage = true := by
  cases hs : g.shape <;> simp only [FieldD.toField, FieldD.isMessage, hs, Field.group] <;> cases hk : g.kind <;> simp

/-- A field and its value in the struct `x`. -/
structure Slot (f : FileD) (t : Bytes × List FieldD) (vs : List V) (n : Nat) (q : FieldD × V) : Prop where
  index : ∃ i : Nat, t.2[i]? = some q.1 ∧ vs[i]? = some q.2
  typed : q.2.OfField f.schema (q.1.toField f)
  depth : q.2.depth ≤ n

theorem ofFields_pair {S : Schema} : ∀ {fs : List Field} {vs : List V}, OfFields S fs vs → ∀ {i : Nat} {g : Field} {v : V}, fs[i]? = some g → vs[i]? = some v → v.OfField S g
  | [], _, _, i, g, v, h, _ => by simp at h
  | _ :: _, [], h, _, _, _, _, _ => by simp [OfFields] at h
  | a :: fs, b :: vs, h, 0, g, v, h1, h2 => by
    simp only [List.getElem?_cons_zero, Option.some.injEq] at h1 h2
    subst h1; subst h2
    exact h.1
  | a :: fs, b :: vs, h, i + 1, g, v, h1, h2 => ofFields_pair h.2 (by simpa using h1) (by simpa using h2)

theorem slot {t : Bytes × List FieldD} {vs : List V} {n : Nat} (hv : OfFields f.schema (t.2.map (FieldD.toField f)) vs) (hd : depths vs ≤ n) :
    ∀ q ∈ t.2.zip vs, Slot f t vs n q := by
  intro q hq
  obtain ⟨i, hi⟩ := List.mem_iff_getElem?.mp hq
  rw [List.getElem?_zip_eq_some] at hi
  refine ⟨⟨i, hi⟩, ?_, Nat.le_trans (depth_le_depths (List.mem_of_getElem? hi.2)) hd⟩
  exact ofFields_pair hv (by rw [List.getElem?_map, hi.1]; rfl) hi.2

/-- The chain of scalar fields. -/
theorem eval_chain (h : f.Plain) {l : List (Ident × TV)} (he : EncEnv f l) {t : Bytes × List FieldD} (ht : t ∈ f.types) {vs : List V}
    (hx : l.lookup go!"x" = some ⟨.ptr (.name (camel t.1)), .data (.msg vs)⟩) {n : Nat} : ∀ (qs : List (FieldD × V)), (∀ q ∈ qs, Slot f t vs n q ∧ q.1.isValue = true) →
    ∀ (e : Expr) (s s1 : St), (∀ n, e ≠ .var n) → s1.locals = l → eval (program f) rd call e s = .ok [⟨tEncoder, .encoder⟩] s1 →
    eval (program f) rd call ((qs.map (·.1)).foldl (fun e g => encValue (camel g.name) g.kind e) e) s =
      .ok [⟨tEncoder, .encoder⟩] { s1 with out := s1.out ++ qs.flatMap fun q => q.2.items f.schema (q.1.toField f) }
  | [], _, e, s, s1, _, _, hs => by simpa using hs
  | q :: qs, hq, e, s, s1, hp, hl, hs => by
    obtain ⟨⟨⟨i, hi⟩, hty, hd⟩, hval⟩ := hq q (List.mem_cons_self ..)
    obtain ⟨g, v⟩ := q
    simp only at hi hty hd hval
    have hshape : ∃ r, g.shape = .one r := by
      cases hsh : g.shape <;> simp [FieldD.isValue, hsh] at hval ⊢
    obtain ⟨r, hshape⟩ := hshape
    have hk : g.kind ≠ .message := by simpa [FieldD.isValue, hshape] using hval
    have hto : g.toField f = .one g.kind (f.ref g.kind g.type) r := by simp [FieldD.toField, hshape]
    obtain ⟨x, rfl⟩ : ∃ x, v = .scalar x := by
      rw [hto] at hty
      cases v <;> simp_all [V.OfField]
    have hpl := place_field (rd := rd) (call := call) h ht hx hi.1 hi.2
    have hfty : fieldTy t.1 g = elemTy g.kind (camel g.type) := by simp [fieldTy, hshape]
    rw [hfty] at hpl
    rw [hto] at hty
    have h1 := eval_scalar (rd := rd) (call := call) h he.env.base (a := xf (camel g.name)) (ty := camel g.type) (by simpa [V.OfField] using hty) hl hp hs (hpl.reads s1 hl)
    rw [List.map_cons, List.foldl_cons, List.flatMap_cons]
    have h2 := eval_chain h he ht hx qs (fun q hq' => hq q (List.mem_cons_of_mem _ hq')) (encValue (camel g.name) g.kind e) s _ (by simp [encValue]) (by exact hl) h1
    have hitem : (V.scalar x).items f.schema (g.toField f) = [x.item] := by rw [hto, V.items]
    refine h2.trans ?_
    simp only [hitem, List.append_assoc]

/-- Statements for each of some fields. -/
theorem writes_fields {l : List (Ident × TV)} {stmts : FieldD → List Stmt} : ∀ (qs : List (FieldD × V)),
    (∀ q ∈ qs, Writes f rd call (block (stmts q.1)) l (q.2.items f.schema (q.1.toField f))) →
    Writes f rd call (block ((qs.map (·.1)).flatMap stmts)) l (qs.flatMap fun q => q.2.items f.schema (q.1.toField f))
  | [], _ => writes_nil l
  | q :: qs, h => by
    rw [List.map_cons, List.flatMap_cons, List.flatMap_cons]
    exact writes_append (h q (List.mem_cons_self ..)) (writes_fields qs fun q hq => h q (List.mem_cons_of_mem _ hq))

theorem supported_field (h : f.Plain) {t : Bytes × List FieldD} (ht : t ∈ f.types) {g : FieldD} (hg : g ∈ t.2) : (g.toField f).GoSupported :=
  (h.supported (t.2.map (FieldD.toField f)) (List.mem_map.mpr ⟨t, ht, rfl⟩)).1 _ (List.mem_map.mpr ⟨g, hg, rfl⟩)

/-- A message or map field. -/
theorem writes_nested (h : f.Plain) {l : List (Ident × TV)} (he : EncEnv f l) {n : Nat} (hc : EncCallee f call n) (hm : MapCallee f call n)
    {t : Bytes × List FieldD} (ht : t ∈ f.types) {vs : List V} (hx : l.lookup go!"x" = some ⟨.ptr (.name (camel t.1)), .data (.msg vs)⟩)
    {q : FieldD × V} (hq : Slot f t vs n q) (hn : q.1.isMessage = true) : Writes f rd call (encMessage (camel q.1.name)) l (q.2.items f.schema (q.1.toField f)) := by
  obtain ⟨⟨i, hi⟩, hty, hd⟩ := hq
  obtain ⟨g, v⟩ := q
  simp only at hi hty hd hn ⊢
  have hg := List.mem_of_getElem? hi.1
  have hpl := place_field (rd := rd) (call := call) h ht hx hi.1 hi.2
  cases hs : g.shape with
  | many => simp [FieldD.isMessage, hs] at hn
  | one r =>
    have hk : g.kind = .message := by simpa [FieldD.isMessage, hs] using hn
    have hto : g.toField f = .one .message (f.ref g.kind g.type) r := by simp [FieldD.toField, hs, hk]
    have hfty : fieldTy t.1 g = .ptr (.name (camel g.type)) := by simp [fieldTy, hs, hk, elemTy]
    rw [hfty] at hpl
    rw [hto] at hty ⊢
    rw [items_card]
    exact writes_message h he hc ht hg hk (ofField_card hty) hd hpl
  | map kk =>
    have hfty : fieldTy t.1 g = .name (mapName t.1 g) := by simp [fieldTy, hs]
    rw [hfty] at hpl
    exact writes_encode he hpl (tn := mapName t.1 g) rfl (find_mapEncode h ht hg hs) rfl rfl fun s _ => hm t ht g hg kk hs v hty hd s

/-- The fields of a message. -/
theorem writes_body (h : f.Plain) {l : List (Ident × TV)} (he : EncEnv f l) {n : Nat} (hc : EncCallee f call n) (hm : MapCallee f call n)
    {t : Bytes × List FieldD} (ht : t ∈ f.types) {vs : List V} (hx : l.lookup go!"x" = some ⟨.ptr (.name (camel t.1)), .data (.msg vs)⟩)
    (hv : OfFields f.schema (t.2.map (FieldD.toField f)) vs) (hd : depths vs ≤ n) :
    Writes f rd call (block ((if t.2.filter FieldD.isValue = [] then [] else [.expr ((t.2.filter FieldD.isValue).foldl (fun e f => encValue (camel f.name) f.kind e) encoder)]) ++
      (t.2.filter FieldD.isSlice).flatMap (fun f => encSlice (camel f.name) f.kind) ++ (t.2.filter FieldD.isMessage).map fun f => encMessage (camel f.name))) l
      (itemsOf f.schema .scalars (t.2.map (FieldD.toField f)) vs ++ itemsOf f.schema .repeateds (t.2.map (FieldD.toField f)) vs ++
        itemsOf f.schema .nesteds (t.2.map (FieldD.toField f)) vs) := by
  have hlen : t.2.length = vs.length := by simpa using GoGen.ofFields_length _ _ _ hv
  have hslot := slot hv hd
  have hsel : ∀ (p : FieldD → Bool), ∀ q ∈ (t.2.zip vs).filter (fun q => p q.1), Slot f t vs n q ∧ p q.1 = true := by
    intro p q hq
    obtain ⟨h1, h2⟩ := List.mem_filter.mp hq
    exact ⟨hslot q h1, h2⟩
  rw [itemsOf_zip f.schema .scalars FieldD.isValue t.2 vs (fun g _ => group_value g), itemsOf_zip f.schema .repeateds FieldD.isSlice t.2 vs (fun g _ => group_slice g),
    itemsOf_zip f.schema .nesteds FieldD.isMessage t.2 vs (fun g _ => group_message g), filter_zip FieldD.isValue t.2 vs hlen, filter_zip FieldD.isSlice t.2 vs hlen,
    filter_zip FieldD.isMessage t.2 vs hlen]
  refine writes_append (writes_append ?_ (writes_fields _ ?_)) ?_
  · generalize hqs : (t.2.zip vs).filter (fun q => FieldD.isValue q.1) = qs
    have hall : ∀ q ∈ qs, Slot f t vs n q ∧ q.1.isValue = true := by rw [← hqs]; exact hsel FieldD.isValue
    by_cases hq : qs = []
    · subst hq
      simpa using writes_nil l
    · rw [if_neg (by simpa using hq)]
      refine writes_one (writes_expr fun s hs => ⟨[⟨tEncoder, .encoder⟩], ?_⟩)
      exact eval_chain h he ht hx qs hall encoder s s (by simp [encoder]) hs (eval_encoder he hs)
  · intro q hq
    obtain ⟨⟨⟨i, hi⟩, hty, hd⟩, hq⟩ := hsel FieldD.isSlice q hq
    have hs : q.1.shape = .many := by
      cases hsh : q.1.shape <;> simp [FieldD.isSlice, hsh] at hq ⊢
    have hg := List.mem_of_getElem? hi.1
    have hsup := supported_field h ht hg
    simp only [FieldD.toField, hs, Field.GoSupported] at hsup
    exact writes_slice h he hc ht hx hi.1 hi.2 hs hsup.1 hsup.2.1 hty hd
  · have := writes_fields (lib := lib) (f := f) (rd := rd) (call := call) (l := l) (stmts := fun g => [encMessage (camel g.name)]) ((t.2.zip vs).filter fun q => FieldD.isMessage q.1) ?_
    · rw [← List.map_eq_flatMap] at this; exact this
    · intro q hq
      obtain ⟨h1, h2⟩ := hsel FieldD.isMessage q hq
      exact writes_one (writes_nested h he hc hm ht hx h1 h2)

/-- `Encode` of every message type. -/
theorem run_encode (h : f.Plain) (rd : GoGen.Codec) : ∀ (n d : Nat), 2 * n ≤ d → EncCallee f (runFn (program f) rd d) n := by
  intro n
  induction n with
  | zero =>
    intro d _ m t x ht hx hd
    cases x with
    | scalar y => simp only [V.OfField] at hx; cases y <;> exact hx.elim
    | nil => simp [V.depth] at hd
    | msg vs => simp [V.depth] at hd
    | _ => simp [V.OfField] at hx
  | succ n ih =>
    intro d hd m t x ht hx hdx s
    obtain ⟨d, rfl⟩ : ∃ e, d = e + 2 := ⟨d - 2, by omega⟩
    have hmem := List.mem_of_getElem? ht
    have he := encEnv_start (f := f) h ⟨.ptr (.name (camel t.1)), .data x⟩
    refine run_writes (x := go!"x") (t := .ptr (.name (camel t.1))) (l := [(go!"x", ⟨.ptr (.name (camel t.1)), .data x⟩), (go!"b", ⟨tBuffer, .buffer⟩)]) rfl rfl rfl (writes_one ?_) s
    cases x with
    | nil =>
      refine writes_ite (v := true) (fun s hs => eval_isNil he.env.base h hs (eval_local (by rw [hs, lookup_cons_self])) rfl) ?_
      rw [if_pos rfl]
      refine writes_one (writes_expr fun s hs => ⟨[⟨tEncoder, .encoder⟩], ?_⟩)
      exact eval_call0 (r := ([⟨tEncoder, .encoder⟩], none)) (target_method (isPackage_false (by simp [encoder])) (eval_encoder he hs)) (apply_encoder rfl s) (storeReceiver_none _ _)
    | msg vs =>
      refine writes_ite (v := false) (fun s hs => eval_isNil he.env.base h hs (eval_local (by rw [hs, lookup_cons_self])) rfl) ?_
      rw [if_neg (by decide)]
      simp only [V.OfField, true_and] at hx
      simp only [V.depth, Nat.add_le_add_iff_right] at hdx
      rw [Schema.layout, V.items]
      rw [schema_fields ht] at hx ⊢
      exact writes_body h he (ih _ (by omega)) (run_map h (ih d (by omega))) hmem (lookup_cons_self ..) hx hdx
    | scalar y => simp only [V.OfField] at hx; cases y <;> exact hx.elim
    | _ => simp [V.OfField] at hx

end

end GoRun
