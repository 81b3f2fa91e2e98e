import Verif.Text.GoRunDecodeField

/-!
# Running the generated `Decode`: repeated fields
-/

namespace GoRun

open Utils Text GoAst GoText Gen Spec
open GoGen (AnyLaw)
open GoV2 (Req)

variable {lib : Lib}

section
variable {f : FileD} {rd : GoGen.Codec} {call : Callee} {α β : Type} {R : Recv} {U : List Ident}

/-- Decoding one element, in the model. -/
def elemD (rd : GoGen.Codec) (rec : GoGen.Callees) (k : PKind) (r : Nat) (old : V) : GoGen.D V :=
  if k = .message then GoGen.decInto rec r old
  else match GoGen.decodeLUT k, GoGen.FindElem k r false with
    | some m, some t => if m = .Bytes then GoGen.D.bad else do
        let s ← GoGen.assign rd m [] t
        pure (.scalar s)
    | _, _ => GoGen.D.bad

theorem decElems_cons (rec : GoGen.Callees) (k : PKind) (r : Nat) (old : V) (olds : List V) : GoGen.decElems rd rec k r (old :: olds) =
    (elemD rd rec k r old >>= fun v => GoGen.decElems rd rec k r olds >>= fun vs => pure (v :: vs)) := rfl

theorem elemTy_scalar {k : PKind} (hk : k ≠ .message) (he : k ≠ .enum) (ty : Ident) : elemTy k ty = scalarTy k := by
  cases k <;> simp_all [elemTy]

theorem SimM.yields {m : M Flow} {l : List (Ident × TV)} {G : GoGen.D α} {Q : α → List (Ident × TV) → Prop} (h : SimM R m l G Q) {P : α → Prop} (hy : GoGen.Yields G P) :
    SimM R m l G (fun a l' => Q a l' ∧ P a) := by
  intro s hs
  have h1 := h s hs
  have h2 := (hy s.inp).2
  cases hG : G s.inp with
  | ok r a =>
    rw [hG] at h1
    obtain ⟨l', h3, h4⟩ := h1
    exact ⟨l', ⟨h3, h2 r a hG⟩, h4⟩
  | err e => rw [hG] at h1; exact h1
  | panic => rw [hG] at h1; exact h1
  | _ => trivial

/-- The statements for an element. -/
theorem sim_elem (h : f.Plain) (hl : AnyLaw ver rd) {rec : GoGen.Callees} (hrec : DecCallees f call rec) {t : Bytes × List FieldD} (ht : t ∈ f.types)
    {g : FieldD} (hg : g ∈ t.2) (hk : g.kind ≠ .group ∧ g.kind ≠ .enum ∧ g.kind ≠ .bytes)
    {root : Ident} {e : Expr} {upd : V → List (Ident × TV)} (hc : Cell f rd call root e (elemTy g.kind (camel g.type)) upd) (h1 : root ≠ go!"d") (h2 : root ≠ go!"err")
    {w : V} (hw : g.kind = .message → w.OfField f.schema (.one g.kind (f.ref g.kind g.type) false)) (hE : DecEnv (upd w)) (hN : g.kind = .message → (upd w).lookup (go!"New" ++ camel g.type) = none)
    (hR : ∀ v, V.OfField f.schema (.one g.kind (f.ref g.kind g.type) false) v → R.In (upd v)) :
    Sim R f rd call ((if g.kind = .message then
       [.if1 (.eq e vnil) (block [.assign e (.call0 (.var (go!"New" ++ camel g.type)))]),
        .assign verr (.call1 (.sel e go!"decode") vd)]
      else [.assign2 e verr (.call0 (.sel vd (method g.kind)))]) ++ [check]) (upd w) (elemD rd rec g.kind (f.ref g.kind g.type) w) (fun v l' => l' = upd v) := by
  by_cases hm : g.kind = .message
  · obtain ⟨t', ht', hn⟩ := type_ref h ht hg hm
    unfold elemD
    rw [if_pos hm, if_pos hm]
    have hc' : Cell f rd call root e (.ptr (.name (camel t'.1))) upd := by rw [hn]; rw [hm] at hc; exact hc
    have := sim_into h hrec ht' hc' h1 h2 (by rw [hm] at hw ⊢; exact hw rfl) hE (by rw [hn]; exact hN hm) (by rw [hm] at hR ⊢; exact hR)
    rw [hn] at this
    exact this
  · obtain ⟨m, ty, z, hr⟩ := scalarRead ⟨hm, hk.1⟩ hk.2.1
    unfold elemD
    rw [if_neg hm, if_neg hm, hr.lut, hr.find]
    simp only
    rw [if_neg (fun hb => hk.2.2 (hr.bytes.mp hb))]
    rw [elemTy_scalar hm hk.2.1] at hc
    refine ((tries_scalar hl hr hk.2.2 hc h1 h2 hE (hR _ (hr.typed ..))).next ?_).check h
    rintro s l' rfl
    exact .inr ⟨_, rfl, rfl⟩

/-- The loop over the elements. -/
theorem sim_elems {rec : GoGen.Callees} {k : PKind} {r : Nat} {cond : M Bool} {body : M Flow} {post : M _root_.Unit} {L : List V → BitVec 32 → List (Ident × TV)} {size : BitVec 32}
    {P : V → Prop} (hcond : ∀ ws j s, s.locals = L ws j → cond s = .ok (decide (j < size)) s)
    (hpost : ∀ ws j s, s.locals = L ws j → post s = .ok () { s with locals := L ws (j + 1) })
    (hyield : ∀ w, P w → GoGen.Yields (elemD rd rec k r w) P)
    (hbody : ∀ ws (j : BitVec 32) w, ws[j.toNat]? = some w → (∀ o ∈ ws, P o) → ws.length = size.toNat → SimM R body (L ws j) (elemD rd rec k r w) (fun v l' => l' = L (ws.set j.toNat v) j))
    (hsig : ∀ ws ws' j j', (L ws j).map sig = (L ws' j').map sig) :
    ∀ (olds done : List V) (n : Nat), (∀ o ∈ done, P o) → (∀ o ∈ olds, P o) → done.length + olds.length = size.toNat → olds.length < n →
      SimM R (loop cond body post n) (L (done ++ olds) (BitVec.ofNat 32 done.length)) (GoGen.decElems rd rec k r olds) (fun vs l' => l' = L (done ++ vs) size) := by
  intro olds
  induction olds with
  | nil =>
    intro done n _ _ hlen hn
    obtain ⟨n, rfl⟩ : ∃ m, n = m + 1 := ⟨n - 1, by simp at hn; omega⟩
    have hj : BitVec.ofNat 32 done.length = size := by
      simp only [List.length_nil, Nat.add_zero] at hlen
      rw [hlen]; simp
    rw [hj]
    refine loop_end (fun s hs => ?_) rfl
    rw [hcond _ _ s hs]
    simp
  | cons old olds ih =>
    intro done n hD hP hlen hn
    obtain ⟨n, rfl⟩ : ∃ m, n = m + 1 := ⟨n - 1, by simp at hn; omega⟩
    simp only [List.length_cons] at hlen hn
    have hj : (BitVec.ofNat 32 done.length).toNat = done.length := by
      have := size.isLt
      rw [BitVec.toNat_ofNat, Nat.mod_eq_of_lt (by omega)]
    rw [decElems_cons]
    refine loop_step (I := fun v l' => l' = L (done ++ v :: olds) (BitVec.ofNat 32 done.length) ∧ P v) (fun s hs => ?_) ?_ ?_
    · rw [hcond _ _ s hs]
      have : BitVec.ofNat 32 done.length < size := by rw [BitVec.lt_def, hj]; omega
      simp [this]
    · refine SimM.yields ((hbody _ (BitVec.ofNat 32 done.length) old ?_ ?_ ?_).imp ?_) (hyield old (hP old (by simp)))
      · rw [hj]; simp
      · intro o ho
        rcases List.mem_append.mp ho with ho | ho
        · exact hD o ho
        · exact hP o ho
      · simpa using hlen
      · rintro v l' rfl _
        rw [hj]; simp
    · rintro v l' ⟨rfl, hv⟩
      refine ⟨L (done ++ v :: olds) (BitVec.ofNat 32 (done.length + 1)), fun s hs => ?_, .of_eq (hsig ..), ?_⟩
      · rw [hpost _ _ s hs]
        simp [BitVec.ofNat_add]
      · have h1 := ih (done ++ [v]) n (fun o ho => by
          rcases List.mem_append.mp ho with ho | ho
          · exact hD o ho
          · rw [List.mem_singleton.mp ho]; exact hv) (fun o ho => hP o (by simp [ho])) (by simp; omega) (by omega)
        rw [List.length_append, List.append_assoc] at h1
        intro s hs
        have h2 := h1 s hs
        rw [dbind_apply]
        cases hG : GoGen.decElems rd rec k r olds s.inp with
        | ok b vs =>
          rw [hG] at h2
          obtain ⟨l', h3, h4, h5⟩ := h2
          exact ⟨l', by simpa using h3, h4, h5⟩
        | err e => rw [hG] at h2; exact h2
        | panic => rw [hG] at h2; exact h2
        | _ => trivial

theorem zero_basic (h : f.Plain) {n : Ident} (hn : Lower n) : zero (program f) (.name n) = basic.lookup n := by
  unfold zero
  simp only
  rw [findType_none (not_declared h.wf hn)]

/-- The zero value of a scalar. -/
theorem zero_scalar (h : f.Plain) {k : PKind} (hk : GoGen.IsScalar k) (he : k ≠ .enum) (r : Nat) :
    zero (program f) (scalarTy k) = some (.data (((GoGen.FindElem k r false).map GoGen.zero).getD .nil)) ∧ scalarTy k ≠ .name go!"byte" := by
  obtain ⟨h1, h2⟩ := hk
  refine ⟨?_, by cases k <;> first | exact absurd rfl h1 | exact absurd rfl h2 | exact absurd rfl he | decide⟩
  cases k <;> first | exact absurd rfl h1 | exact absurd rfl h2 | exact absurd rfl he | exact (zero_basic h ⟨_, _, rfl, by decide⟩).trans rfl | rfl

/-- The zero value of an element. -/
theorem zero_elem (h : f.Plain) {k : PKind} (hk : k ≠ .group ∧ k ≠ .enum ∧ k ≠ .bytes) (ty : Ident) (r : Nat) :
    zero (program f) (elemTy k ty) = some (.data (((GoGen.FindElem k r false).map GoGen.zero).getD .nil)) ∧ elemTy k ty ≠ .name go!"byte" := by
  by_cases hm : k = .message
  · subst hm
    exact ⟨rfl, by simp [elemTy]⟩
  · rw [elemTy_scalar hm hk.2.1]
    exact zero_scalar h ⟨hm, hk.1⟩ hk.2.1 r

/-- None of these names is hidden by a local variable. -/
def Free (U : List Ident) (l : List (Ident × TV)) : Prop := ∀ n ∈ U, l.lookup n = none

theorem Free.cons {l : List (Ident × TV)} (h : Free U l) {n : Ident} (hn : n ∉ U) (v : TV) : Free U ((n, v) :: l) := fun m hm => by
  rw [lookup_cons_ne fun h => hn (by rw [← h]; exact hm)]; exact h m hm

theorem Free.sig {l l' : List (Ident × TV)} (hs : l'.map GoRun.sig = l.map GoRun.sig) (h : Free U l) : Free U l' := fun n hn => none_sig hs (h n hn)

theorem not_mem_lower (hU : ∀ n ∈ U, Upper n) {m : Ident} (hm : Lower m) : m ∉ U := fun h => upper_ne (hU _ h) hm rfl

/-- Local variables of `decode` with receiver `x`. -/
structure DecState [Lib] (t : Bytes × List FieldD) (U : List Ident) (vs : List V) (l : List (Ident × TV)) : Prop where
  dec : DecEnv l
  /-- the names that are still needed are visible -/
  env : Free U l
  up : ∀ n ∈ U, Upper n
  x : l.lookup go!"x" = some ⟨.ptr (.name (camel t.1)), .data (.msg vs)⟩

theorem set_getElem {vs : List V} {i : Nat} {v : V} (h : vs[i]? = some v) : vs.set i v = vs := by
  obtain ⟨hi, rfl⟩ := List.getElem?_eq_some_iff.mp h
  simp

/-- The local variables after `x.F = w` for field `i`. -/
def fieldUpd (t : Bytes × List FieldD) (vs : List V) (i : Nat) (l : List (Ident × TV)) (w : V) : List (Ident × TV) :=
  setLocal go!"x" ⟨.ptr (.name (camel t.1)), .data (.msg (vs.set i w))⟩ l

theorem fieldUpd_cons (t : Bytes × List FieldD) (vs : List V) (i : Nat) {n : Ident} (hn : n ≠ go!"x") (v : TV) (l : List (Ident × TV)) (w : V) :
    fieldUpd t vs i ((n, v) :: l) w = (n, v) :: fieldUpd t vs i l w := by
  rw [fieldUpd, setLocal, if_neg hn.symm]; rfl

theorem DecState.self {t : Bytes × List FieldD} {l : List (Ident × TV)} {vs : List V} (hS : DecState t U vs l) {i : Nat} {old : V} (hv : vs[i]? = some old) :
    fieldUpd t vs i l old = l := by
  rw [fieldUpd, set_getElem hv, setLocal_self hS.x]

theorem DecState.cell (h : f.Plain) {t : Bytes × List FieldD} (ht : t ∈ f.types) {l : List (Ident × TV)} {vs : List V} (hS : DecState t U vs l)
    {i : Nat} {g : FieldD} (hg : t.2[i]? = some g) {old : V} (hv : vs[i]? = some old) :
    Cell f rd call go!"x" (xf (camel g.name)) (fieldTy t.1 g) (fieldUpd t vs i l) := by
  obtain ⟨hi, _⟩ := List.getElem?_eq_some_iff.mp hv
  exact cell_field h ht hS.x hg hi

theorem DecState.upd {t : Bytes × List FieldD} {l : List (Ident × TV)} {vs : List V} (hS : DecState t U vs l) (i : Nat) (w : V) :
    DecState t U (vs.set i w) (fieldUpd t vs i l w) where
  dec := ⟨base_sig (sig_setLocal hS.x rfl) hS.dec.base, (lookup_setLocal_ne _ (by decide) _).trans hS.dec.d, (lookup_setLocal_ne _ (by decide) _).trans hS.dec.err⟩
  env := hS.env.sig (sig_setLocal hS.x rfl)
  up := hS.up
  x := lookup_setLocal_self _ hS.x

/-- The receiver of `decode` of a type. -/
def recv (f : FileD) (t : Bytes × List FieldD) : Recv := ⟨.ptr (.name (camel t.1)), fun v => ∃ fs, v = .msg fs ∧ OfFields f.schema (t.2.map (FieldD.toField f)) fs⟩

theorem DecState.recv {t : Bytes × List FieldD} {l : List (Ident × TV)} {vs : List V} (hS : DecState t U vs l) (ho : OfFields f.schema (t.2.map (FieldD.toField f)) vs) :
    (recv f t).In l := ⟨_, hS.x, _, rfl, ho⟩

theorem DecState.recv_upd {t : Bytes × List FieldD} {l : List (Ident × TV)} {vs : List V} (hS : DecState t U vs l) (ho : OfFields f.schema (t.2.map (FieldD.toField f)) vs)
    {i : Nat} {g : FieldD} (hg : t.2[i]? = some g) {w : V} (hw : w.OfField f.schema (g.toField f)) : (GoRun.recv f t).In (fieldUpd t vs i l w) :=
  (hS.upd i w).recv (GoGen.ofFields_set ho (by simp [hg]) hw)

theorem eval_zero (h : f.Plain) {l : List (Ident × TV)} (hl : Base l) {s : St} (hs : s.locals = l) :
    eval (program f) rd call (uint32 (.num go!"0")) s = .ok [⟨tUint32, .data (.scalar (.uint32 0))⟩] s :=
  eval_builtin h hl hs (.inl rfl) (v := ⟨tConst, .const 0⟩) (by rw [eval]; rfl) (by simp [builtin])

/-- `i` hides nothing. -/
theorem DecEnv.cons {l : List (Ident × TV)} (he : DecEnv l) {n : Ident} (hr : n ∉ reserved) (h1 : n ≠ go!"d") (h2 : n ≠ go!"err") (v : TV) : DecEnv ((n, v) :: l) where
  base := he.base.cons hr v
  d := by rw [lookup_cons_ne h1.symm]; exact he.d
  err := by rw [lookup_cons_ne h2.symm]; exact he.err

theorem DecState.mono {t : Bytes × List FieldD} {l : List (Ident × TV)} {vs : List V} (hS : DecState t U vs l) {U' : List Ident} (hU : ∀ n ∈ U', n ∈ U) : DecState t U' vs l :=
  ⟨hS.dec, fun n hn => hS.env n (hU n hn), fun n hn => hS.up n (hU n hn), hS.x⟩

theorem mentions_new {owner : Bytes} {g : FieldD} (hk : g.kind = .message) (hs : ∀ kk, g.shape ≠ .map kk) : go!"New" ++ camel g.type ∈ g.mentions owner := by
  unfold FieldD.mentions
  cases h : g.shape with
  | map kk => exact absurd h (hs kk)
  | _ => simp [hk]

theorem new_hidden (h : f.Plain) {t : Bytes × List FieldD} (ht : t ∈ f.types) {g : FieldD} (hg : g ∈ t.2) (hk : g.kind = .message) {l : List (Ident × TV)} (he : Env f l) :
    l.lookup (go!"New" ++ camel g.type) = none := by
  obtain ⟨t', ht', hn⟩ := type_ref h ht hg hk
  rw [← hn]
  exact he _ (.inr (declared_new h (List.mem_of_getElem? ht')))

/-- A repeated field. -/
theorem sim_slice (h : f.Plain) (hl : AnyLaw ver rd) {rec : GoGen.Callees} (hrec : DecCallees f call rec) (htc : GoGen.TypedCallees f.schema rec) {t : Bytes × List FieldD} (ht : t ∈ f.types)
    {l : List (Ident × TV)} {vs : List V} (hS : DecState t U vs l) (ho : OfFields f.schema (t.2.map (FieldD.toField f)) vs)
    {i : Nat} {g : FieldD} (hg : t.2[i]? = some g) (hU : ∀ n ∈ g.mentions t.1, n ∈ U) {old : V} (hv : vs[i]? = some old)
    (hs : g.shape = .many) (hty : old.OfField f.schema (g.toField f)) {y : V} (hy : l.lookup go!"sliceSize" = some ⟨tUint32, .data y⟩) :
    Sim (recv f t) f rd call (GoText.decSlice (camel g.name) g.kind (manyTy g.kind g.type) (camel g.type)) l (GoGen.decSlice rd rec (g.toField f) old)
      (fun v l' => DecState t U (vs.set i v) l' ∧ l'.map sig = l.map sig) := by
  have hgm := List.mem_of_getElem? hg
  have hsup := supported_field h ht hgm
  simp only [FieldD.toField, hs, Field.GoSupported] at hsup
  have hto : g.toField f = .many g.kind (f.ref g.kind g.type) := by simp [FieldD.toField, hs]
  rw [hto] at hty ⊢
  obtain ⟨ws, rfl⟩ : ∃ ws, old = .slice ws := by cases old <;> simp_all [V.OfField]
  simp only [V.OfField] at hty
  obtain ⟨kk, hkk⟩ := GoGen.getKind_ok hsup.1
  have hann : g.kind.announced = kk := by
    have := hkk
    cases hgk : g.kind <;> rw [hgk] at this <;> simp [GoGen.GetKind, GoGen.kindLUT] at this <;> subst this <;> rfl
  unfold GoGen.decSlice
  simp only [Field.Kind, hkk]
  have hmt : manyTy g.kind g.type = elemTy g.kind (camel g.type) := by
    have := hsup.2.1
    cases hgk : g.kind <;> simp_all [manyTy]
  rw [GoText.decSlice, hmt]
  -- the size
  have hcs := cell_var (lib := lib) (f := f) (rd := rd) (call := call) (n := go!"sliceSize") (by decide) hy
  have hself : setLocal go!"sliceSize" ⟨tUint32, .data y⟩ l = l := setLocal_self hy
  have hsize := tries_read hcs (by decide) (by decide) (w := y) (by rw [hself]; exact hS.dec) (m := go!"Slice") (args := [⟨tKind, .kind kk⟩]) (q := .slice kk)
    (z := .scalar (.uint32 0)) (callE := .call1 (.sel vd go!"Slice") (kindConst g.kind)) (by decide) (by simp [request]) rfl
    (fun s hs => eval_d1 (by rw [hs, hself]; exact hS.dec.d) _ (by rw [← hann]; exact eval_kindConst hS.dec.base (hs.trans hself) hsup.1)) (returned_some hl (by simp) (.inr (by simp))) (((hS.recv ho)).set (by decide) _)
  rw [hself] at hsize
  refine Sim.seq (a := [_, _]) (hsize.check h) ?_
  rintro it l1 ⟨u, hu, rfl⟩
  cases it with
  | slice size k' =>
    simp only [returned, Option.some.injEq] at hu
    subst hu
    simp only
    generalize hl1 : setLocal go!"sliceSize" ⟨tUint32, .data (.scalar (.uint32 size))⟩ l = l1
    have hsig1 : l1.map sig = l.map sig := by rw [← hl1]; exact sig_setLocal hy rfl
    have hsz : l1.lookup go!"sliceSize" = some ⟨tUint32, .data (.scalar (.uint32 size))⟩ := by rw [← hl1]; exact lookup_setLocal_self _ hy
    have hS1 : DecState t U vs l1 := by
      refine ⟨⟨base_sig hsig1 hS.dec.base, ?_, ?_⟩, hS.env.sig hsig1, hS.up, ?_⟩ <;> rw [← hl1, lookup_setLocal_ne _ (by decide)]
      · exact hS.dec.d
      · exact hS.dec.err
      · exact hS.x
    clear hsize
    have hc := hS1.cell (rd := rd) (call := call) h ht hg hv
    have hupd := hS1.self hv
    have hst := fun w => hS1.upd i w
    have hfty : fieldTy t.1 g = .slice (elemTy g.kind (camel g.type)) := by simp only [fieldTy, hs, hmt]
    rw [hfty] at hc
    -- make
    generalize hcur : (if BitVec.ofNat 32 (GoGen.elems (.slice ws)).length ≠ size
        then List.replicate size.toNat (((GoGen.FindElem g.kind (f.ref g.kind g.type) false).map GoGen.zero).getD .nil)
        else GoGen.elems (.slice ws)) = cur
    have hlen : cur.length = size.toNat := by
      rw [← hcur]
      split
      · simp
      · rename_i hne
        simp only [ne_eq, Decidable.not_not] at hne
        rw [← hne]
        simp only [GoGen.elems, BitVec.toNat_ofNat]
        rw [Nat.mod_eq_of_lt hty.1]
    have hcurty : ∀ o ∈ cur, o.OfField f.schema (.one g.kind (f.ref g.kind g.type) false) := by
      intro o ho
      rw [← hcur] at ho
      split at ho
      · rw [(List.mem_replicate.mp ho).2]
        by_cases hk : g.kind = .message
        · simp only [hk]
          simp [GoGen.FindElem, GoGen.typeLUT, GoGen.zero, V.OfField]
        · obtain ⟨h1, h2, h3⟩ := hsup
          cases hgk : g.kind <;> simp_all [GoGen.FindElem, GoGen.typeLUT, GoGen.zero, V.OfField, Scalar.OfKind]
      · exact (GoGen.ofElems_iff ..).mp hty.2 o ho
    have hzero := zero_elem h hsup (camel g.type) (f.ref g.kind g.type)
    refine Sim.pre (a := [_]) (l' := fieldUpd t vs i l1 (.slice cur)) ?_ (.of_eq ((hc.sig (.slice ws) (.slice cur)).trans (by rw [hupd]))) (sim_one ?_)
    · intro s hs'
      have hs'' : s.locals = fieldUpd t vs i l1 (.slice ws) := by rw [hs', hupd]
      have hlenE : eval (program f) rd call (uint32 (len (xf (camel g.name)))) s = .ok [⟨tUint32, .data (.scalar (.uint32 (BitVec.ofNat 32 ws.length)))⟩] s :=
        eval_builtin h hS1.dec.base hs' (.inl rfl) (v := ⟨tInt, .int ws.length⟩)
          (eval_builtin h hS1.dec.base hs' (.inr rfl) (hc.reads _ s hs'') (by simp [builtin])) (by simp [builtin])
      have hsizeE : eval (program f) rd call vsize s = .ok [⟨tUint32, .data (.scalar (.uint32 size))⟩] s := eval_local (by rw [hs']; exact hsz)
      have hne : eval (program f) rd call (.ne (uint32 (len (xf (camel g.name)))) vsize) s = .ok [⟨tBool, .data (.scalar (.bool !decide (BitVec.ofNat 32 ws.length = size)))⟩] s := by
        rw [eval, bind_ok (one_ok hlenE), bind_ok (one_ok hsizeE)]
        simp only [equal, if_true, bind_apply, need_some, pure_apply]
      rw [exec_block_cons, exec, bind_ok (isTrue_ok hne)]
      by_cases he : BitVec.ofNat 32 ws.length = size
      · have hcw : cur = ws := by rw [← hcur, if_neg (by simpa [GoGen.elems] using he)]; rfl
        simp only [he, decide_true, Bool.not_true, Bool.false_eq_true, if_false, pure_apply, hcw, hupd]
        rw [exec_block_nil, ← hs']
      · have hcw : cur = List.replicate size.toNat (((GoGen.FindElem g.kind (f.ref g.kind g.type) false).map GoGen.zero).getD .nil) := by
          rw [← hcur, if_pos (by simpa [GoGen.elems] using he)]
        simp only [he, decide_false, Bool.not_false, if_true]
        have hmake : exec (program f) rd call (block [.assign (xf (camel g.name)) (.make (.slice (elemTy g.kind (camel g.type))) vsize)]) s =
            .ok .next { s with locals := fieldUpd t vs i l1 (.slice cur) } := by
          have hev : eval (program f) rd call (.make (.slice (elemTy g.kind (camel g.type))) vsize) s = .ok [⟨.slice (elemTy g.kind (camel g.type)), .data (.slice cur)⟩] s := by
            rw [eval, bind_ok (one_ok hsizeE)]
            simp only [makeOf, hzero.1, if_neg hzero.2, bind_apply, need_some, pure_apply, ← hcw]
          rw [exec_block_cons, exec, bind_ok (one_ok hev), bind_ok (hc.stores _ (.slice cur) s hs'')]
          exact exec_block_nil _
        rw [inBlock_ok hmake (by
          have := congrArg List.length (hc.sig (.slice ws) (.slice cur))
          simp only [List.length_map] at this
          rw [hs'']; exact this)]
        exact exec_block_nil _
    · -- the loop
      have hiL : Lower go!"i" := ⟨_, _, rfl, by decide⟩
      have hSi : ∀ j : BitVec 32, DecState t U vs ((go!"i", ⟨tUint32, .data (.scalar (.uint32 j))⟩) :: l1) := fun j =>
        ⟨hS1.dec.cons (by decide) (by decide) (by decide) _, hS1.env.cons (not_mem_lower hS1.up hiL) _, hS1.up, by rw [lookup_cons_ne (by decide)]; exact hS1.x⟩
      have hsizeL : ∀ ws j, (fieldUpd t vs i ((go!"i", ⟨tUint32, .data (.scalar (.uint32 j))⟩) :: l1) (.slice ws)).lookup go!"sliceSize" =
          some ⟨tUint32, .data (.scalar (.uint32 size))⟩ := fun ws j => by
        rw [fieldUpd, lookup_setLocal_ne _ (by decide), lookup_cons_ne (by decide)]; exact hsz
      have hiL : ∀ w (j : BitVec 32), (fieldUpd t vs i ((go!"i", ⟨tUint32, .data (.scalar (.uint32 j))⟩) :: l1) w).lookup go!"i" =
          some ⟨tUint32, .data (.scalar (.uint32 j))⟩ := fun ws j => by
        rw [fieldUpd_cons _ _ _ (by decide), lookup_cons_self]
      have hloop := sim_elems (R := recv f t) (rd := rd) (rec := rec) (k := g.kind) (r := f.ref g.kind g.type) (size := size)
        (P := fun o => o.OfField f.schema (.one g.kind (f.ref g.kind g.type) false))
        (L := fun ws j => fieldUpd t vs i ((go!"i", ⟨tUint32, .data (.scalar (.uint32 j))⟩) :: l1) (.slice ws))
        (cond := isTrue (eval (program f) rd call (.lt vi vsize)))
        (body := inBlock (exec (program f) rd call (block (
           (if g.kind = .message then
             [.if1 (.eq (.index (xf (camel g.name)) vi) vnil) (block [.assign (.index (xf (camel g.name)) vi) (.call0 (.var (go!"New" ++ camel g.type)))]),
              .assign verr (.call1 (.sel (.index (xf (camel g.name)) vi) go!"decode") vd)]
            else [.assign2 (.index (xf (camel g.name)) vi) verr (.call0 (.sel vd (method g.kind)))]) ++ [check]))))
        (post := increment go!"i") ?_ ?_ (fun w hw => GoGen.typed_elem hl htc hsup w fun _ => hw) ?_ ?_ cur [] loopBound (by simp) hcurty (by simpa using hlen) (by rw [hlen]; exact size.isLt)
      · rw [exec]
        refine (SimM.inBlock (Q := fun v l' => ∃ us, v = .slice us ∧ l' = fieldUpd t vs i ((go!"i", ⟨tUint32, .data (.scalar (.uint32 size))⟩) :: l1) (.slice us)) ?_ ?_)
        · intro s hs'
          have hz := eval_zero (rd := rd) (call := call) h (hst (.slice cur)).dec.base hs'
          rw [bind_ok (one_ok hz), bind_apply]
          simp only [declare]
          rw [if_neg (by decide)]
          have h2 := hloop { s with locals := (go!"i", ⟨tUint32, .data (.scalar (.uint32 0))⟩) :: s.locals } (by
            rw [fieldUpd_cons _ _ _ (by decide), hs']; rfl)
          have hx : Sfx (fieldUpd t vs i l1 (.slice cur)) (fieldUpd t vs i ((go!"i", ⟨tUint32, .data (.scalar (.uint32 (BitVec.ofNat 32 ([] : List V).length)))⟩) :: l1) (.slice ([] ++ cur))) := by
            rw [fieldUpd_cons _ _ _ (by decide)]; exact Sfx.cons (by decide) _
          rw [dbind_apply]
          simp only at h2 ⊢
          cases hG : GoGen.decElems rd rec g.kind (f.ref g.kind g.type) cur s.inp with
          | ok r us =>
            rw [hG] at h2
            obtain ⟨l', h3, h4, h5⟩ := h2
            exact ⟨l', ⟨us, rfl, h3⟩, hx.trans h4, h5⟩
          | err e =>
            rw [hG] at h2
            obtain ⟨s', h4, hR, h5⟩ := h2
            exact ⟨s', hx.trans h4, hR, h5⟩
          | panic => rw [hG] at h2; exact h2
          | _ => trivial
        · rintro v l' ⟨us, rfl, rfl⟩ _
          rw [fieldUpd_cons _ _ _ (by decide)]
          have hlen' : (fieldUpd t vs i l1 (.slice us)).length = (fieldUpd t vs i l1 (.slice cur)).length := by simp only [fieldUpd, setLocal_length]
          rw [List.length_cons, hlen', Nat.add_sub_cancel_left, List.drop_succ_cons, List.drop_zero]
          exact ⟨hst _, (hc.sig (.slice ws) (.slice us)).trans (by rw [hupd]; exact hsig1)⟩
      · intro us j s hs'
        exact eval_less (eval_local (by rw [hs']; exact hiL _ j)) (eval_local (by rw [hs']; exact hsizeL us j))
      · intro us j s hs'
        rw [increment_eq (by rw [hs']; exact hiL _ j)]
        rw [hs', fieldUpd_cons _ _ _ (by decide), fieldUpd_cons _ _ _ (by decide), setLocal, if_pos rfl]
      · intro us j w hw hP hus
        obtain ⟨hj, _⟩ := List.getElem?_eq_some_iff.mp hw
        have hcf := (hSi j).cell (rd := rd) (call := call) h ht hg hv
        rw [hfty] at hcf
        have hce := cell_index hcf hj (fun w => hiL w j)
        have := sim_elem h hl hrec ht hgm hsup hce (by decide) (by decide) (w := w) (fun _ => hP w (List.mem_of_getElem? hw)) (by rw [set_getElem hw]; exact ((hSi j).upd i _).dec)
          (fun hk => by rw [set_getElem hw]; exact ((hSi j).upd i _).env _ (hU _ (mentions_new hk (by simp [hs]))))
          (fun v hv' => (hSi j).recv_upd ho hg (by
            rw [hto]
            simp only [V.OfField]
            refine ⟨by rw [List.length_set, hus]; exact size.isLt, (GoGen.ofElems_iff ..).mpr fun o ho' => ?_⟩
            rcases List.mem_or_eq_of_mem_set ho' with ho' | rfl
            · exact hP o ho'
            · exact hv'))
        rw [set_getElem hw] at this
        exact this.inBlock' fun a l' hl' => by rw [hl']; simp only [fieldUpd, setLocal_length]
      · intro us us' j j'
        rw [fieldUpd_cons _ _ _ (by decide), fieldUpd_cons _ _ _ (by decide), List.map_cons, List.map_cons, hc.sig (.slice us') (.slice us)]
        rfl
  | _ => exact sim_bad

end

end GoRun
