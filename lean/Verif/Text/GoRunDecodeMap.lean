import Verif.Text.GoRunDecodeSlice

/-!
# Running the generated `Decode`: maps
-/

namespace GoRun

open Utils Text GoAst GoText Gen Spec
open GoGen (AnyLaw)
open GoV2 (Req)

variable {lib : Lib}

section
variable {f : FileD} {rd : GoGen.Codec} {call : Callee} {α β : Type} {R : Recv}

/-- The local variables of the loop over the entries: `l0` with new values. -/
structure MapSt [Lib] (mn : Ident) (size : BitVec 32) (l0 : List (Ident × TV)) (ks : List Scalar) (vs : List V) (j : BitVec 32) (l : List (Ident × TV)) : Prop where
  sig : l.map sig = l0.map sig
  x : l.lookup go!"x" = some ⟨.name mn, .data (.map ks vs)⟩
  i : l.lookup go!"i" = some ⟨tUint32, .data (.scalar (.uint32 j))⟩
  size : l.lookup go!"size" = some ⟨tUint32, .data (.scalar (.uint32 size))⟩
  dec : DecEnv l

/-- What is needed of the variables before the loop. -/
structure MapStart [Lib] (kk k : PKind) (type : Bytes) (l0 : List (Ident × TV)) : Prop where
  key : ∃ y, l0.lookup go!"k" = some ⟨scalarTy kk, .data y⟩
  value : ∃ y, l0.lookup go!"v" = some ⟨elemTy k (camel type), .data y⟩
  temp : k = .enum → ∃ y, l0.lookup go!"ValueTemp" = some ⟨tUint32, .data y⟩
  enum : k = .enum → l0.lookup (camel type) = none
  new : k = .message → l0.lookup (go!"New" ++ camel type) = none

/-- Changing another variable. -/
theorem MapSt.other {mn : Ident} {size : BitVec 32} {l0 : List (Ident × TV)} {ks : List Scalar} {vs : List V} {j : BitVec 32} {l l' : List (Ident × TV)}
    (hS : MapSt mn size l0 ks vs j l) (hs : l'.map GoRun.sig = l.map GoRun.sig) (ho : ∀ n ∈ [go!"x", go!"i", go!"size", go!"d", go!"err"], l'.lookup n = l.lookup n) :
    MapSt mn size l0 ks vs j l' where
  sig := hs.trans hS.sig
  x := (ho _ (by simp)).trans hS.x
  i := (ho _ (by simp)).trans hS.i
  size := (ho _ (by simp)).trans hS.size
  dec := ⟨base_sig hs hS.dec.base, (ho _ (by simp)).trans hS.dec.d, (ho _ (by simp)).trans hS.dec.err⟩

theorem MapSt.setOther {mn : Ident} {size : BitVec 32} {l0 : List (Ident × TV)} {ks : List Scalar} {vs : List V} {j : BitVec 32} {l : List (Ident × TV)}
    (hS : MapSt mn size l0 ks vs j l) {n : Ident} {t : Ty} {y : V} (hy : l.lookup n = some ⟨t, .data y⟩) (hn : n ∉ [go!"x", go!"i", go!"size", go!"d", go!"err"]) (w : V) :
    MapSt mn size l0 ks vs j (setLocal n ⟨t, .data w⟩ l) :=
  hS.other (sig_setLocal hy rfl) fun m hm => lookup_setLocal_ne _ (by rintro rfl; exact hn hm) _

/-- Reading a key. -/
theorem sim_key (h : f.Plain) (hl : AnyLaw ver rd) {mn : Ident} {size : BitVec 32} {l0 l : List (Ident × TV)} {ks : List Scalar} {vs : List V} {j : BitVec 32}
    (hS : MapSt mn size l0 ks vs j l) {kk k : PKind} {type : Bytes} (h0 : MapStart kk k type l0) (hkk : IsKey kk) (hR : ∀ l, MapSt mn size l0 ks vs j l → R.In l) :
    Sim R f rd call (decEntry go!"k" kk [] [] ++ [check]) l (GoGen.decKey rd kk)
      (fun key l' => MapSt mn size l0 ks vs j l' ∧ l'.lookup go!"k" = some ⟨scalarTy kk, .data (.scalar key)⟩) := by
  obtain ⟨-, -, hb, he, hm, hg⟩ := hkk
  obtain ⟨m, ty, z, hr⟩ := scalarRead (k := kk) ⟨hm, hg⟩ he
  obtain ⟨y0, hy0⟩ := h0.key
  obtain ⟨y, hy⟩ := lookup_data hS.sig hy0
  have hst : decEntry go!"k" kk [] [] = [.assign2 (.var go!"k") verr (.call0 (.sel vd (method kk)))] := by cases kk <;> simp_all [decEntry]
  rw [hst]
  unfold GoGen.decKey
  rw [hr.lut, hr.find]
  simp only
  rw [if_neg he, if_neg (fun h => hb (hr.bytes.mp h))]
  have hself : setLocal go!"k" ⟨scalarTy kk, .data y⟩ l = l := setLocal_self hy
  have := tries_scalar (call := call) hl hr hb (cell_var (lib := lib) (f := f) (rd := rd) (call := call) (n := go!"k") (by decide) hy) (by decide) (by decide) (w := y) (by rw [hself]; exact hS.dec) ((hR l hS).set (by decide) _)
  rw [hself] at this
  refine (this.check h).imp ?_
  rintro key l' rfl _
  exact ⟨hS.setOther hy (by decide) _, lookup_setLocal_self _ hy⟩

/-- Reading a value. -/
theorem sim_mapValue (h : f.Plain) (hl : AnyLaw ver rd) {rec : GoGen.Callees} (hrec : DecCallees f call rec) {t : Bytes × List FieldD} (ht : t ∈ f.types)
    {g : FieldD} (hg : g ∈ t.2) (hk : g.kind ≠ .group ∧ g.kind ≠ .bytes)
    {mn : Ident} {size : BitVec 32} {l0 l : List (Ident × TV)} {ks : List Scalar} {vs : List V} {j : BitVec 32}
    (hS : MapSt mn size l0 ks vs j l) {kk : PKind} (h0 : MapStart kk g.kind g.type l0) {key : Scalar} (hkey : l.lookup go!"k" = some ⟨scalarTy kk, .data (.scalar key)⟩)
    (hR : ∀ l, MapSt mn size l0 ks vs j l → R.In l) :
    Sim R f rd call (decEntry go!"v" g.kind (camel g.type) go!"ValueTemp" ++ [check]) l (GoGen.decMapValue rd rec g.kind (f.ref g.kind g.type))
      (fun v l' => MapSt mn size l0 ks vs j l' ∧ l'.lookup go!"k" = some ⟨scalarTy kk, .data (.scalar key)⟩ ∧
        l'.lookup go!"v" = some ⟨elemTy g.kind (camel g.type), .data v⟩) := by
  obtain ⟨y0, hy0⟩ := h0.value
  obtain ⟨y, hy⟩ := lookup_data hS.sig hy0
  have hc := cell_var (lib := lib) (f := f) (rd := rd) (call := call) (n := go!"v") (by decide) hy
  have hself : setLocal go!"v" ⟨elemTy g.kind (camel g.type), .data y⟩ l = l := setLocal_self hy
  have fin : ∀ v, MapSt mn size l0 ks vs j (setLocal go!"v" ⟨elemTy g.kind (camel g.type), .data v⟩ l) ∧
      (setLocal go!"v" ⟨elemTy g.kind (camel g.type), .data v⟩ l).lookup go!"k" = some ⟨scalarTy kk, .data (.scalar key)⟩ ∧
      (setLocal go!"v" ⟨elemTy g.kind (camel g.type), .data v⟩ l).lookup go!"v" = some ⟨elemTy g.kind (camel g.type), .data v⟩ := fun v =>
    ⟨hS.setOther hy (by decide) _, (lookup_setLocal_ne _ (by decide) _).trans hkey, lookup_setLocal_self _ hy⟩
  by_cases hm : g.kind = .message
  · obtain ⟨t', ht', hn⟩ := type_ref h ht hg hm
    have hN := none_sig hS.sig (h0.new hm)
    generalize hr : f.ref g.kind g.type = r at ht' ⊢
    generalize hkd : g.kind = kd at hm hc hself fin ⊢
    subst hm
    have hG : GoGen.decMapValue rd rec .message r = GoGen.decInto rec r .nil := by unfold GoGen.decMapValue; rfl
    rw [hG]
    have := sim_fresh h hrec ht' (root := go!"v") (e := .var go!"v") (upd := fun w => setLocal go!"v" ⟨elemTy .message (camel g.type), .data w⟩ l) (by rw [hn]; exact hc)
      (by decide) (by decide) (w := y) (by rw [hself]; exact hS.dec) (by rw [hself, hn]; exact hN) (fun v _ => (hR l hS).set (by decide) _)
    rw [hself, hn] at this
    refine SimM.imp this ?_
    rintro v l' rfl _
    exact fin v
  · by_cases he : g.kind = .enum
    · have hen := (h.closed t ht g hg).2 he
      obtain ⟨z0, hz0⟩ := h0.temp he
      obtain ⟨z, hz⟩ := lookup_data hS.sig hz0
      have hN := none_sig hS.sig (h0.enum he)
      generalize hkd : g.kind = kd at he hc hself fin hy ⊢
      subst he
      have hG : GoGen.decMapValue rd rec .enum (f.ref .enum g.type) = (do let s ← GoGen.assignEnum rd .Uint32; pure (.scalar s)) := by unfold GoGen.decMapValue; rfl
      rw [hG]
      have := tries_enum (call := call) h hl hS.dec hz (by decide) (by decide) (by decide) hen hN (e := .var go!"v") (root := go!"v") (by decide) (by decide)
        (dest := fun l' v => setLocal go!"v" ⟨.name (camel g.type), .data v⟩ l') ?_ (fun l' _ ho => ((hR l hS).of_eq (ho _ (by decide) (by decide))).set (by decide) _)
      · refine (this.next (H := fun s => pure (.scalar s)) (Q' := fun v l' => MapSt mn size l0 ks vs j l' ∧ l'.lookup go!"k" = some ⟨scalarTy kk, .data (.scalar key)⟩ ∧
          l'.lookup go!"v" = some ⟨elemTy .enum (camel g.type), .data v⟩) ?_).check h
        rintro s l' ⟨l1, h1, h2, rfl⟩
        refine .inr ⟨_, rfl, ?_⟩
        have hy1 : l1.lookup go!"v" = some ⟨elemTy .enum (camel g.type), .data y⟩ := (h2 _ (by decide)).trans hy
        have hS1 : MapSt mn size l0 ks vs j l1 := hS.other h1 fun n hn => h2 n (by rintro rfl; exact absurd hn (by decide))
        refine ⟨hS1.setOther hy1 (by decide) _, ?_, lookup_setLocal_self _ hy1⟩
        rw [lookup_setLocal_ne _ (by decide), h2 _ (by decide)]
        exact hkey
      · intro l' hs' ho v
        have hy' : l'.lookup go!"v" = some ⟨.name (camel g.type), .data y⟩ := (ho _ (by decide) (by decide)).trans hy
        have hc' := cell_var (lib := lib) (f := f) (rd := rd) (call := call) (n := go!"v") (by decide) hy'
        refine ⟨fun s hs => hc'.stores y v s (by rw [hs, setLocal_self hy']), sig_setLocal hy' rfl, fun n hn => lookup_setLocal_ne _ hn _⟩
    · obtain ⟨m, ty, z, hr⟩ := scalarRead (k := g.kind) ⟨hm, hk.1⟩ he
      have hst : decEntry go!"v" g.kind (camel g.type) go!"ValueTemp" = [.assign2 (.var go!"v") verr (.call0 (.sel vd (method g.kind)))] := by
        cases hkd : g.kind <;> simp_all [decEntry]
      rw [hst]
      have hG : GoGen.decMapValue rd rec g.kind (f.ref g.kind g.type) = (do let s ← GoGen.assign rd m [] ty; pure (.scalar s)) := by
        unfold GoGen.decMapValue
        rw [hr.lut, hr.find]
        simp only
        rw [if_neg he, if_neg (fun h => hk.2 (hr.bytes.mp h))]
      rw [hG]
      have hel := elemTy_scalar hm he (camel g.type)
      rw [hel] at hc hself fin ⊢
      have := tries_scalar (call := call) hl hr hk.2 hc (by decide) (by decide) (w := y) (by rw [hself]; exact hS.dec) ((hR l hS).set (by decide) _)
      rw [hself] at this
      refine (this.next (H := fun s => pure (V.scalar s)) ?_).check h
      rintro s l' rfl
      exact .inr ⟨_, rfl, fin _⟩

/-- One entry, in the model. -/
def entryD (rd : GoGen.Codec) (rec : GoGen.Callees) (kk k : PKind) (r : Nat) (ks : List Scalar) (vs : List V) : GoGen.D (List Scalar × List V) :=
  GoGen.decKey rd kk >>= fun key => GoGen.decMapValue rd rec k r >>= fun v => pure (GoGen.put key v ks vs)

theorem decEntries_succ (rec : GoGen.Callees) (kk k : PKind) (r n : Nat) (ks : List Scalar) (vs : List V) : GoGen.decEntries rd rec kk k r (n + 1) ks vs =
    (entryD rd rec kk k r ks vs >>= fun e => GoGen.decEntries rd rec kk k r n e.1 e.2) := by
  funext b
  rw [GoGen.decEntries, entryD]
  simp only [dbind_apply]
  cases GoGen.decKey rd kk b with
  | ok r1 key =>
    simp only
    cases GoGen.decMapValue rd rec k r r1 <;> rfl
  | _ => rfl

/-- `x[k] = v` -/
theorem exec_put (h : f.Plain) {t : Bytes × List FieldD} (ht : t ∈ f.types) {g : FieldD} (hg : g ∈ t.2) {kk : PKind} (hs : g.shape = .map kk)
    {ks : List Scalar} {vs : List V} {key : Scalar} {v : V} (s : St)
    (hx : s.locals.lookup go!"x" = some ⟨.name (mapName t.1 g), .data (.map ks vs)⟩) (hk : s.locals.lookup go!"k" = some ⟨scalarTy kk, .data (.scalar key)⟩)
    (hv : s.locals.lookup go!"v" = some ⟨elemTy g.kind (camel g.type), .data v⟩) :
    exec (program f) rd call (block [.assign (.index vx vk) vv]) s =
      .ok .next { s with locals := setLocal go!"x" ⟨.name (mapName t.1 g), .data (.map (GoGen.put key v ks vs).1 (GoGen.put key v ks vs).2)⟩ s.locals } := by
  have hset : setElement (program f) ⟨.name (mapName t.1 g), .data (.map ks vs)⟩ ⟨scalarTy kk, .data (.scalar key)⟩ ⟨elemTy g.kind (camel g.type), .data v⟩ s =
      .ok ⟨.name (mapName t.1 g), .data (.map (GoGen.put key v ks vs).1 (GoGen.put key v ks vs).2)⟩ s := by
    have h1 := assignTo_same (program f) ⟨scalarTy kk, .data (.scalar key)⟩
    have h2 := assignTo_same (program f) ⟨elemTy g.kind (camel g.type), .data v⟩
    simp only [setElement, find_mapType h ht hg hs, bind_apply]
    simp only [h1, h2, need_some, pure_apply]
  rw [exec_block_cons, exec, vv, bind_ok (one_ok (eval_local hv)), vx, vk, bind_apply, store_index, bind_ok (one_ok (eval_local hx)), bind_ok (one_ok (eval_local hk)), bind_ok hset]
  rw [(cell_var (lib := lib) (f := f) (rd := rd) (call := call) (n := go!"x") (by decide) hx).stores (.map ks vs) _ s (setLocal_self hx).symm]
  exact exec_block_nil _

/-- The body of the loop. -/
theorem sim_entry (h : f.Plain) (hl : AnyLaw ver rd) {rec : GoGen.Callees} (hrec : DecCallees f call rec) {t : Bytes × List FieldD} (ht : t ∈ f.types)
    {g : FieldD} (hg : g ∈ t.2) (hk : g.kind ≠ .group ∧ g.kind ≠ .bytes) {kk : PKind} (hs : g.shape = .map kk) (hkk : IsKey kk)
    {size : BitVec 32} {l0 l : List (Ident × TV)} {ks : List Scalar} {vs : List V} {j : BitVec 32}
    (hS : MapSt (mapName t.1 g) size l0 ks vs j l) (h0 : MapStart kk g.kind g.type l0)
    (hR : ∀ l, MapSt (mapName t.1 g) size l0 ks vs j l → R.In l) :
    Sim R f rd call (decEntry go!"k" kk [] [] ++ [check] ++ decEntry go!"v" g.kind (camel g.type) go!"ValueTemp" ++ [check, .assign (.index vx vk) vv]) l
      (entryD rd rec kk g.kind (f.ref g.kind g.type) ks vs) (fun e l' => MapSt (mapName t.1 g) size l0 e.1 e.2 j l') := by
  have hassoc : ∀ a b : List Stmt, ∀ c d : Stmt, a ++ [c] ++ b ++ [c, d] = (a ++ [c]) ++ ((b ++ [c]) ++ [d]) := by simp
  rw [hassoc, entryD]
  refine (sim_key h hl hS h0 hkk hR).seq ?_
  rintro key l1 ⟨hS1, hk1⟩
  refine (sim_mapValue h hl hrec ht hg hk hS1 h0 hk1 hR).seq ?_
  rintro v l2 ⟨hS2, hk2, hv2⟩
  have hsig : (setLocal go!"x" ⟨.name (mapName t.1 g), .data (.map (GoGen.put key v ks vs).1 (GoGen.put key v ks vs).2)⟩ l2).map sig = l2.map sig := sig_setLocal hS2.x rfl
  have := Sim.pre (R := R) (f := f) (rd := rd) (call := call) (a := [.assign (.index vx vk) vv]) (b := []) (l := l2) (G := pure (GoGen.put key v ks vs)) (Q := fun e l' => MapSt (mapName t.1 g) size l0 e.1 e.2 j l')
    (l' := setLocal go!"x" ⟨.name (mapName t.1 g), .data (.map (GoGen.put key v ks vs).1 (GoGen.put key v ks vs).2)⟩ l2)
    (fun s hs' => by rw [exec_put h ht hg hs s (by rw [hs']; exact hS2.x) (by rw [hs']; exact hk2) (by rw [hs']; exact hv2), hs'])
    (.of_eq hsig) (sim_nil ⟨hsig.trans hS2.sig, lookup_setLocal_self _ hS2.x, (lookup_setLocal_ne _ (by decide) _).trans hS2.i,
      (lookup_setLocal_ne _ (by decide) _).trans hS2.size,
      ⟨base_sig hsig hS2.dec.base, (lookup_setLocal_ne _ (by decide) _).trans hS2.dec.d, (lookup_setLocal_ne _ (by decide) _).trans hS2.dec.err⟩⟩)
  simpa using this

/-- The loop over the entries. -/
theorem sim_entries {rec : GoGen.Callees} {kk k : PKind} {r : Nat} {cond : M Bool} {body : M Flow} {post : M _root_.Unit} {Inv Mid : List Scalar → List V → BitVec 32 → List (Ident × TV) → Prop}
    {size : BitVec 32} (hcond : ∀ ks vs j l, Inv ks vs j l → ∀ s, s.locals = l → cond s = .ok (decide (j < size)) s)
    (hpost : ∀ ks vs j l, j < size → Mid ks vs j l → ∃ l', (∀ s, s.locals = l → post s = .ok () { s with locals := l' }) ∧ Inv ks vs (j + 1) l' ∧ l'.map sig = l.map sig)
    (hbody : ∀ ks vs j l, j < size → Inv ks vs j l → SimM R body l (entryD rd rec kk k r ks vs) (fun e l' => Mid e.1 e.2 j l')) :
    ∀ (n fuel : Nat) (ks : List Scalar) (vs : List V) (j : BitVec 32) (l : List (Ident × TV)), Inv ks vs j l → j.toNat + n = size.toNat → n < fuel →
      SimM R (loop cond body post fuel) l (GoGen.decEntries rd rec kk k r n ks vs) (fun e l' => Inv e.1 e.2 size l') := by
  intro n
  induction n with
  | zero =>
    intro fuel ks vs j l hI hn hf
    obtain ⟨fuel, rfl⟩ : ∃ m, fuel = m + 1 := ⟨fuel - 1, by omega⟩
    have hj : j = size := by apply BitVec.eq_of_toNat_eq; omega
    subst hj
    refine loop_end (a := (ks, vs)) (fun s hs => ?_) hI
    rw [hcond ks vs j l hI s hs]
    simp
  | succ n ih =>
    intro fuel ks vs j l hI hn hf
    obtain ⟨fuel, rfl⟩ : ∃ m, fuel = m + 1 := ⟨fuel - 1, by omega⟩
    rw [decEntries_succ]
    have hjs : j < size := by rw [BitVec.lt_def]; omega
    refine loop_step (I := fun e l' => Mid e.1 e.2 j l') (fun s hs => ?_) (hbody ks vs j l hjs hI) ?_
    · rw [hcond ks vs j l hI s hs]
      simp [hjs]
    · intro e l' hI'
      obtain ⟨l'', h1, h2, h3⟩ := hpost e.1 e.2 j l' hjs hI'
      refine ⟨l'', h1, .of_eq h3, ih fuel e.1 e.2 (j + 1) l'' h2 ?_ (by omega)⟩
      have := size.isLt
      rw [BitVec.toNat_add, Nat.mod_eq_of_lt] <;> simp <;> omega

/-! ## Functions -/

/-- The statements of a method `decode` with receiver `x` do what the model does, which yields the receiver. -/
def Body [Lib] (R : Recv) (f : FileD) (rd : GoGen.Codec) (call : Callee) (st : List Stmt) (l : List (Ident × TV)) (G : GoGen.D V) : Prop :=
  ∀ s, s.locals = l → match G s.inp with
    | .ok r v => ∃ l', l'.lookup go!"x" = some ⟨R.ty, .data v⟩ ∧ exec (program f) rd call (block st) s = .ok (.ret [⟨tNil, .nil⟩]) ⟨l', s.out, r⟩
    | .err e => ∃ s', (R.In s'.locals ∧ s'.out = s.out) ∧ exec (program f) rd call (block st) s = .ok (.ret [errTV e]) s'
    | .panic => exec (program f) rd call (block st) s = .fail .panic
    | _ => True

theorem calls_body {d : Nat} {fn : Func} {st : List Stmt} {v : V} {args : List Value} {l : List (Ident × TV)} {G : GoGen.D V}
    (hr : fn.recv = some (go!"x", R.ty)) (hres : fn.result = some terror) (hst : fn.body = block st)
    (hl : (go!"x", ⟨R.ty, .data v⟩) :: List.zipWith (fun p a => (p.1, ⟨p.2, a⟩)) fn.params args = l) (hb : Body R f rd (runFn (program f) rd d) st l G) :
    Calls R.ok (runFn (program f) rd (d + 1) fn (some (.data v)) args) G := by
  intro s
  have hframe : frame fn (some (.data v)) args = some l := by subst hl; simp [frame, hr]
  rw [runFn]
  simp only [hframe, hst]
  have h1 := hb { s with locals := l } rfl
  simp only at h1
  cases hG : G s.inp with
  | ok r w =>
    rw [hG] at h1
    obtain ⟨l', h2, h3⟩ := h1
    simp only [h3, hres, results]
    have : assignTo (program f) terror ⟨tNil, .nil⟩ = some (.err none) := rfl
    simp only [this, Option.map_some, receiver, hr, h2]
    rfl
  | err e =>
    rw [hG] at h1
    obtain ⟨s', ⟨⟨w, h2, hw⟩, ho⟩, h3⟩ := h1
    refine ⟨w, { s' with locals := s.locals }, rfl, ⟨hw, ho⟩, ?_⟩
    simp only [h3, hres, results]
    have : assignTo (program f) terror (errTV e) = some (errTV e).val := assignTo_same _ (errTV e)
    simp only [this, Option.map_some, receiver, hr, h2]
    rfl
  | panic => rw [hG] at h1; simp only at h1 ⊢; rw [h1]
  | _ => trivial

/-- `return nil` at the end. -/
theorem Body.of_sim (h : f.Plain) {st : List Stmt} {l : List (Ident × TV)} {G : GoGen.D α} {F : α → V}
    {Q : α → List (Ident × TV) → Prop} (hs : Sim R f rd call st l G Q) (hq : ∀ a l', Q a l' → Base l' ∧ l'.lookup go!"x" = some ⟨R.ty, .data (F a)⟩) :
    Body R f rd call (st ++ [.ret1 vnil]) l (G >>= fun a => pure (F a)) := by
  intro s hs'
  have h1 := hs s hs'
  rw [dbind_apply]
  cases hG : G s.inp with
  | ok r a =>
    rw [hG] at h1
    obtain ⟨l', h2, _, h3⟩ := h1
    obtain ⟨hb, hx'⟩ := hq a l' h2
    refine ⟨l', hx', ?_⟩
    rw [exec_block_append, h3]
    simp only
    rw [exec_block_cons, exec, bind_ok (nil_env hb h rfl)]
    rfl
  | err e =>
    rw [hG] at h1
    obtain ⟨s', _, hR, h3⟩ := h1
    exact ⟨s', hR, by rw [exec_block_append, h3]⟩
  | panic => rw [hG] at h1; simp only at h1 ⊢; rw [exec_block_append, h1]
  | _ => trivial

/-- First something that changes the variables only. -/
theorem Body.pre {a b : List Stmt} {l l' : List (Ident × TV)} {G : GoGen.D V}
    (ha : ∀ s, s.locals = l → exec (program f) rd call (block a) s = .ok .next { s with locals := l' }) (hb : Body R f rd call b l' G) : Body R f rd call (a ++ b) l G := by
  intro s hs
  have h2 := hb { s with locals := l' } rfl
  rw [exec_block_append, ha s hs]
  exact h2

theorem exec_var {l : List (Ident × TV)} {n : Ident} {t : Ty} {z : Value} (hn : n ≠ go!"_") (hz : zero (program f) t = some z) (s : St) (hs : s.locals = l) :
    exec (program f) rd call (block [.var n t]) s = .ok .next { s with locals := (n, ⟨t, z⟩) :: l } := by
  rw [exec_block_cons, exec, hz, bind_ok (need_some _ s), bind_apply]
  simp only [declare, if_neg hn, hs]
  exact exec_block_nil _

/-- The zero value of any value that generated code declares. -/
theorem zero_any (h : f.Plain) {t : Bytes × List FieldD} (ht : t ∈ f.types) {g : FieldD} (hg : g ∈ t.2) (hk : g.kind ≠ .group) :
    ∃ z, zero (program f) (elemTy g.kind (camel g.type)) = some (.data z) := by
  by_cases he : g.kind = .enum
  · have hen := (h.closed t ht g hg).2 he
    rw [he]
    refine ⟨.scalar (.enum 0), ?_⟩
    show zero (program f) (.name (camel g.type)) = _
    unfold zero
    simp only
    rw [(find_enum h hen).1]
    rfl
  · by_cases hm : g.kind = .message
    · rw [hm]; exact ⟨_, rfl⟩
    · rw [elemTy_scalar hm he]
      exact ⟨_, (zero_scalar h ⟨hm, hk⟩ he 0).1⟩

/-- Well-typed entries, at most `n`. -/
def EntriesOk (f : FileD) (kk : PKind) (g : FieldD) (n : Nat) (ks : List Scalar) (vs : List V) : Prop :=
  ks.length = vs.length ∧ vs.length ≤ n ∧ ks.Nodup ∧ (∀ s ∈ ks, s.OfKind kk) ∧ ∀ v ∈ vs, v.OfField f.schema (.one g.kind (f.ref g.kind g.type) false)

theorem EntriesOk.ofField {kk : PKind} {g : FieldD} {n : Nat} {ks : List Scalar} {vs : List V} (h : EntriesOk f kk g n ks vs) (hn : n < 2 ^ 32) :
    V.OfField f.schema (.map kk g.kind (f.ref g.kind g.type)) (.map ks vs) := by
  obtain ⟨h1, h2, h3, h4, h5⟩ := h
  simp only [V.OfField]
  exact ⟨h1, Nat.lt_of_le_of_lt h2 hn, h3, h4, (GoGen.ofElems_iff ..).mpr h5⟩

theorem typed_entry (hl : AnyLaw ver rd) {rec : GoGen.Callees} (htc : GoGen.TypedCallees f.schema rec) {kk : PKind} {g : FieldD}
    (hsup : kk ≠ .group ∧ kk ≠ .message ∧ kk ≠ .bytes ∧ g.kind ≠ .group ∧ g.kind ≠ .bytes) {n : Nat} {ks : List Scalar} {vs : List V} (h : EntriesOk f kk g n ks vs) :
    GoGen.Yields (entryD rd rec kk g.kind (f.ref g.kind g.type) ks vs) (fun e => EntriesOk f kk g (n + 1) e.1 e.2) := by
  unfold entryD
  refine GoGen.yields_bind (GoGen.safe_decKey hl ⟨hsup.2.1, hsup.1⟩ hsup.2.2.1 (fun _ => True) fun _ _ => trivial).yields ?_
  intro key hkey
  refine GoGen.yields_bind (GoGen.typed_decMapValue hl htc hsup.2.2.2.1 hsup.2.2.2.2) ?_
  intro v hv
  exact GoGen.yields_pure (GoGen.put_typed hkey.1 hv ks vs n h).1

/-- The receiver of `decode` of the type of a map field. -/
def mapRecv (f : FileD) (t : Bytes × List FieldD) (g : FieldD) (kk : PKind) : Recv := ⟨.name (mapName t.1 g), V.OfField f.schema (.map kk g.kind (f.ref g.kind g.type))⟩

/-- `decode` of the type of a map field. -/
def MapDecoder [Lib] (f : FileD) (rd : GoGen.Codec) (call : Callee) (rec : GoGen.Callees) : Prop :=
  ∀ t ∈ f.types, ∀ g ∈ t.2, ∀ kk, g.shape = .map kk → ∀ size : BitVec 32,
    Calls (V.OfField f.schema (.map kk g.kind (f.ref g.kind g.type))) (call (decodeMapFunc (mapName t.1 g) kk g.kind (camel g.type)).fn (some (.data (.map [] []))) [.decoder, .data (.scalar (.uint32 size))])
      (do let e ← GoGen.decEntries rd rec kk g.kind (f.ref g.kind g.type) size.toNat [] []; pure (.map e.1 e.2))

theorem run_mapDecode (h : f.Plain) (hu : f.Unhidden) (hl : AnyLaw ver rd) {rec : GoGen.Callees} {d : Nat} (hrec : DecCallees f (runFn (program f) rd d) rec)
    (htc : GoGen.TypedCallees f.schema rec) : MapDecoder f rd (runFn (program f) rd (d + 1)) rec := by
  intro t ht g hg kk hs size
  have hwf := (h.wf.typeWf ht).fields g hg
  have hkk := hwf.key kk hs
  have hsup := supported_field h ht hg
  simp only [FieldD.toField, hs, Field.GoSupported] at hsup
  have hk : g.kind ≠ .group ∧ g.kind ≠ .bytes := hsup.2.2.2
  refine calls_body (R := mapRecv f t g kk) (st := _) (l := [(go!"x", ⟨.name (mapName t.1 g), .data (.map [] [])⟩), (go!"d", ⟨tDecoder, .decoder⟩), (go!"size", ⟨tUint32, .data (.scalar (.uint32 size))⟩)])
    rfl rfl rfl rfl ?_
  generalize hl0 : ([(go!"x", ⟨.name (mapName t.1 g), .data (.map [] [])⟩), (go!"d", ⟨tDecoder, .decoder⟩),
    (go!"size", ⟨tUint32, .data (.scalar (.uint32 size))⟩)] : List (Ident × TV)) = l0
  have hb0 : Env f l0 := by
    rw [← hl0]
    refine (((Env.nil f).cons ?_ ?_ _).cons ?_ ?_ _).cons ?_ ?_ _
    all_goals first | decide | exact not_declared h.wf ⟨_, _, rfl, by decide⟩
  have hx0 : l0.lookup go!"x" = some ⟨.name (mapName t.1 g), .data (.map [] [])⟩ := by rw [← hl0, lookup_cons_self]
  have hd0 : l0.lookup go!"d" = some ⟨tDecoder, .decoder⟩ := by rw [← hl0, lookup_cons_ne (by decide), lookup_cons_self]
  have hs0 : l0.lookup go!"size" = some ⟨tUint32, .data (.scalar (.uint32 size))⟩ := by
    rw [← hl0, lookup_cons_ne (by decide), lookup_cons_ne (by decide), lookup_cons_self]
  clear hl0
  have hcond : ∀ s : St, s.locals = l0 → isTrue (eval (program f) rd (runFn (program f) rd d) (.eq (.var go!"size") (.num go!"0"))) s = .ok (decide (size = 0)) s := by
    intro s hs'
    refine isTrue_ok (t := tBool) ?_
    have hn : eval (program f) rd (runFn (program f) rd d) (.num go!"0") s = .ok [⟨tConst, .const 0⟩] s := by rw [eval]; rfl
    rw [eval, bind_ok (one_ok (eval_local (by rw [hs']; exact hs0))), bind_ok (one_ok hn)]
    rfl
  by_cases hz : size = 0
  · intro s hs'
    subst hz
    refine ⟨l0, hx0, ?_⟩
    simp only [List.cons_append]
    rw [exec_block_cons, exec, bind_ok (hcond s hs')]
    simp only [decide_true, if_true]
    have : exec (program f) rd (runFn (program f) rd d) (block [.ret1 vnil]) s = .ok (.ret [⟨tNil, .nil⟩]) s := by
      rw [exec_block_cons, exec, bind_ok (nil_env hb0.base h hs')]
      rfl
    rw [inBlock_ok this rfl, ← hs']
  obtain ⟨zv, hzv⟩ := zero_any h ht hg hk.1
  obtain ⟨hke, hkm, hkg⟩ : kk ≠ .enum ∧ kk ≠ .message ∧ kk ≠ .group := ⟨hkk.2.2.2.1, hkk.2.2.2.2.1, hkk.2.2.2.2.2⟩
  obtain ⟨zk, hzk⟩ : ∃ z, zero (program f) (scalarTy kk) = some (.data z) := ⟨_, (zero_scalar h ⟨hkm, hkg⟩ hke 0).1⟩
  have hze : zero (program f) terror = some (.err none) := (zero_basic h ⟨_, _, rfl, by decide⟩).trans rfl
  have hzu : zero (program f) tuint32 = some (.data (.scalar (.uint32 0))) := (zero_basic h ⟨_, _, rfl, by decide⟩).trans rfl
  rw [List.append_assoc, show ∀ a b c : Stmt, [a, b, c] = [a] ++ ([b] ++ [c]) from fun _ _ _ => rfl, List.append_assoc, List.append_assoc]
  refine Body.pre (l' := l0) (fun s hs' => ?_) (Body.pre (exec_var (by decide) hzk) (Body.pre (exec_var (by decide) hzv) ?_))
  · rw [exec_block_cons, exec, bind_ok (hcond s hs')]
    simp only [hz, decide_false, Bool.false_eq_true, if_false, pure_apply]
    rw [← hs']
    exact exec_block_nil _
  -- the variables before the loop
  have key : ∀ l1 : List (Ident × TV), Base l1 → l1.lookup go!"x" = l0.lookup go!"x" → l1.lookup go!"d" = l0.lookup go!"d" → l1.lookup go!"size" = l0.lookup go!"size" →
      MapStart kk g.kind g.type l1 →
      Body (mapRecv f t g kk) f rd (runFn (program f) rd d) [.var go!"err" terror, .for3 go!"i" (uint32 (.num go!"0")) (.lt vi (.var go!"size")) (block (
         decEntry go!"k" kk [] [] ++ [check] ++ decEntry go!"v" g.kind (camel g.type) go!"ValueTemp" ++ [check, .assign (.index vx vk) vv])), .ret1 vnil] l1
        (do let e ← GoGen.decEntries rd rec kk g.kind (f.ref g.kind g.type) size.toNat [] []; pure (.map e.1 e.2)) := by
    intro l1 hb1 hx1 hd1 hs1 hM
    rw [hx0] at hx1
    rw [hd0] at hd1
    rw [hs0] at hs1
    refine Body.pre (a := [_]) (exec_var (by decide) hze) ?_
    generalize hl2 : (go!"err", (⟨terror, .err none⟩ : TV)) :: l1 = l2
    have hne : ∀ {n : Ident}, n ≠ go!"err" → l2.lookup n = l1.lookup n := fun hn => by rw [← hl2, lookup_cons_ne hn]
    have hE2 : DecEnv l2 := ⟨by rw [← hl2]; exact hb1.cons (by decide) _, (hne (by decide)).trans hd1, by rw [← hl2, lookup_cons_self]; rfl⟩
    have hup : ∀ {n : Ident}, Upper n → l2.lookup n = l1.lookup n := fun hn => hne (upper_ne hn ⟨_, _, rfl, by decide⟩)
    have hI0 : MapSt (mapName t.1 g) size ((go!"i", (⟨tUint32, .data (.scalar (.uint32 0))⟩ : TV)) :: l2) [] [] 0 ((go!"i", (⟨tUint32, .data (.scalar (.uint32 0))⟩ : TV)) :: l2) := by
      refine ⟨rfl, ?_, lookup_cons_self .., ?_, hE2.cons (by decide) (by decide) (by decide) _⟩
      · rw [lookup_cons_ne (by decide), hne (by decide)]; exact hx1
      · rw [lookup_cons_ne (by decide), hne (by decide)]; exact hs1
    have hM3 : MapStart kk g.kind g.type ((go!"i", (⟨tUint32, .data (.scalar (.uint32 0))⟩ : TV)) :: l2) := by
      refine ⟨?_, ?_, fun he => ?_, fun he => ?_, fun he => ?_⟩
      · rw [lookup_cons_ne (by decide), hne (by decide)]; exact hM.key
      · rw [lookup_cons_ne (by decide), hne (by decide)]; exact hM.value
      · rw [lookup_cons_ne (by decide), hne (by decide)]; exact hM.temp he
      · have := upper_camel (hwf.type (.inr he))
        rw [lookup_cons_ne (upper_ne this ⟨_, _, rfl, by decide⟩), hup this]; exact hM.enum he
      · rw [lookup_cons_ne (upper_ne (upper_new _) ⟨_, _, rfl, by decide⟩), hup (upper_new _)]; exact hM.new he
    refine Body.of_sim (R := mapRecv f t g kk) (st := [_]) h (F := fun e : List Scalar × List V => .map e.1 e.2)
      (Q := fun (e : List Scalar × List V) l' => Base l' ∧ l'.lookup go!"x" = some ⟨.name (mapName t.1 g), .data (.map e.1 e.2)⟩) (sim_one ?_) (fun e l' hq => hq)
    rw [exec]
    refine SimM.inBlock (Q := fun (e : List Scalar × List V) l' =>
      MapSt (mapName t.1 g) size ((go!"i", (⟨tUint32, .data (.scalar (.uint32 0))⟩ : TV)) :: l2) e.1 e.2 size l') ?_ ?_
    · intro s hs'
      have hz := eval_zero (rd := rd) (call := runFn (program f) rd d) h hE2.base hs'
      rw [bind_ok (one_ok hz), bind_apply]
      simp only [declare]
      rw [if_neg (by decide)]
      have h2 := sim_entries (R := mapRecv f t g kk) (rd := rd) (rec := rec) (kk := kk) (k := g.kind) (r := f.ref g.kind g.type) (size := size)
        (Inv := fun ks vs j l => MapSt (mapName t.1 g) size ((go!"i", (⟨tUint32, .data (.scalar (.uint32 0))⟩ : TV)) :: l2) ks vs j l ∧ EntriesOk f kk g j.toNat ks vs)
        (Mid := fun ks vs j l => MapSt (mapName t.1 g) size ((go!"i", (⟨tUint32, .data (.scalar (.uint32 0))⟩ : TV)) :: l2) ks vs j l ∧ EntriesOk f kk g (j.toNat + 1) ks vs)
        (cond := isTrue (eval (program f) rd (runFn (program f) rd d) (.lt vi (.var go!"size"))))
        (body := inBlock (exec (program f) rd (runFn (program f) rd d) (block (
           decEntry go!"k" kk [] [] ++ [check] ++ decEntry go!"v" g.kind (camel g.type) go!"ValueTemp" ++ [check, .assign (.index vx vk) vv]))))
        (post := increment go!"i") ?_ ?_ ?_ size.toNat loopBound [] [] 0 _ ⟨hI0, by simp [EntriesOk]⟩ (by simp) size.isLt
        { s with locals := (go!"i", ⟨tUint32, .data (.scalar (.uint32 0))⟩) :: s.locals } (by rw [hs'])
      · have hx' : Sfx l2 ((go!"i", (⟨tUint32, .data (.scalar (.uint32 0))⟩ : TV)) :: l2) := Sfx.cons (by decide) _
        simp only at h2 ⊢
        cases hG : GoGen.decEntries rd rec kk g.kind (f.ref g.kind g.type) size.toNat [] [] s.inp with
        | ok r us =>
          rw [hG] at h2
          obtain ⟨l', h3, h4, h5⟩ := h2
          exact ⟨l', h3.1, hx'.trans h4, h5⟩
        | err e =>
          rw [hG] at h2
          obtain ⟨s', h4, hR, h5⟩ := h2
          exact ⟨s', hx'.trans h4, hR, h5⟩
        | panic => rw [hG] at h2; exact h2
        | _ => trivial
      · rintro ks vs j l ⟨hI, _⟩ s hs'
        exact eval_less (eval_local (by rw [hs']; exact hI.i)) (eval_local (by rw [hs']; exact hI.size))
      · rintro ks vs j l hj ⟨hI, hok⟩
        have hj1 : (j + 1).toNat = j.toNat + 1 := by
          have := size.isLt
          rw [BitVec.lt_def] at hj
          rw [BitVec.toNat_add, Nat.mod_eq_of_lt] <;> simp <;> omega
        have hsig : (setLocal go!"i" ⟨tUint32, .data (.scalar (.uint32 (j + 1)))⟩ l).map sig = l.map sig := sig_setLocal hI.i rfl
        refine ⟨_, fun s hs' => by rw [increment_eq (by rw [hs']; exact hI.i), hs'], ⟨⟨hsig.trans hI.sig, ?_, lookup_setLocal_self _ hI.i, ?_, ⟨base_sig hsig hI.dec.base, ?_, ?_⟩⟩, by rw [hj1]; exact hok⟩, hsig⟩
        · exact (lookup_setLocal_ne _ (by decide) _).trans hI.x
        · exact (lookup_setLocal_ne _ (by decide) _).trans hI.size
        · exact (lookup_setLocal_ne _ (by decide) _).trans hI.dec.d
        · exact (lookup_setLocal_ne _ (by decide) _).trans hI.dec.err
      · rintro ks vs j l hj ⟨hI, hok⟩
        refine SimM.yields (SimM.inBlock' (sim_entry h hl hrec ht hg hk hs hkk hI hM3 fun l' hl' => ⟨_, hl'.x, hok.ofField j.isLt⟩) fun e l' hI' => ?_)
          (typed_entry hl htc hsup hok)
        have := congrArg List.length (hI'.sig.trans hI.sig.symm)
        simpa using this
    · intro e l' hI hx'
      obtain ⟨p, l', rfl⟩ : ∃ p q, l' = p :: q := by
        cases l' with
        | nil => have := hI.sig; simp at this
        | cons p q => exact ⟨p, q, rfl⟩
      have hsig := hI.sig
      rw [List.map_cons, List.map_cons, List.cons.injEq] at hsig
      have hlen : l'.length = l2.length := by simpa using congrArg List.length hsig.2
      rw [List.length_cons, hlen, Nat.add_sub_cancel_left, List.drop_succ_cons, List.drop_zero]
      refine ⟨base_sig hsig.2 hE2.base, ?_⟩
      have := hI.x
      obtain ⟨n, w⟩ := p
      have hn : n = go!"i" := congrArg (·.1) hsig.1
      rw [hn, lookup_cons_ne (by decide)] at this
      exact this
  have hbk : Base ((go!"v", (⟨elemTy g.kind (camel g.type), .data zv⟩ : TV)) :: (go!"k", ⟨scalarTy kk, .data zk⟩) :: l0) := (hb0.base.cons (by decide) _).cons (by decide) _
  have hlow : ∀ n : Ident, Upper n → ((go!"v", (⟨elemTy g.kind (camel g.type), .data zv⟩ : TV)) :: (go!"k", ⟨scalarTy kk, .data zk⟩) :: l0).lookup n = l0.lookup n := fun n hn => by
    rw [lookup_cons_ne (upper_ne hn ⟨_, _, rfl, by decide⟩), lookup_cons_ne (upper_ne hn ⟨_, _, rfl, by decide⟩)]
  by_cases he : g.kind = .enum
  · rw [if_pos he]
    refine Body.pre (exec_var (by decide) hzu) (key _ ?_ ?_ ?_ ?_ ⟨?_, ?_, fun _ => ?_, fun _ => ?_, fun hm => ?_⟩)
    · exact hbk.cons (by decide) _
    · rw [lookup_cons_ne (by decide), lookup_cons_ne (by decide), lookup_cons_ne (by decide)]
    · rw [lookup_cons_ne (by decide), lookup_cons_ne (by decide), lookup_cons_ne (by decide)]
    · rw [lookup_cons_ne (by decide), lookup_cons_ne (by decide), lookup_cons_ne (by decide)]
    · rw [lookup_cons_ne (by decide), lookup_cons_ne (by decide), lookup_cons_self]; exact ⟨_, rfl⟩
    · rw [lookup_cons_ne (by decide), lookup_cons_self]; exact ⟨_, rfl⟩
    · rw [lookup_cons_self]; exact ⟨_, rfl⟩
    · rw [lookup_cons_ne (hu.valueTemp t ht g hg he kk hs), hlow _ (upper_camel (hwf.type (.inr he)))]
      exact hb0 _ (.inr (declared_enum_name ((h.closed t ht g hg).2 he)))
    · rw [he] at hm; cases hm
  · rw [if_neg he]
    refine key _ hbk ?_ ?_ ?_ ⟨?_, ?_, fun hc => absurd hc he, fun hc => absurd hc he, fun hm => ?_⟩
    · rw [lookup_cons_ne (by decide), lookup_cons_ne (by decide)]
    · rw [lookup_cons_ne (by decide), lookup_cons_ne (by decide)]
    · rw [lookup_cons_ne (by decide), lookup_cons_ne (by decide)]
    · rw [lookup_cons_ne (by decide), lookup_cons_self]; exact ⟨_, rfl⟩
    · rw [lookup_cons_self]; exact ⟨_, rfl⟩
    · rw [hlow _ (upper_new _)]
      exact new_hidden h ht hg hm hb0

end

end GoRun
