import Verif.Text.RustRunDecodeAll

/-!
# Running generated Rust code: `decode` of a message
-/

namespace RustRun

open Utils RustAst RustText
open Text hiding Tok
open Gen (PKind Scalar V Field Schema)
open GoText (FieldD FileD)
open Rust (Cursor Std)
open GoGen (idx isValue isSlice isMsg)

section
variable {P : List Item} {std : Std} {trait : Ident → Ident → List RV → M RV} {local_ : Sig → Stmt → List RV → M RV} {L : Locals} {α β γ : Type}

/-! ## The fields, in the order in which they are read -/

/-- Read the fields of a list of indices. -/
def collect (init : Field → RustGen.D V) (fields : List Field) : List Nat → RustGen.D (List V)
  | [] => pure []
  | i :: is =>
    match fields[i]? with
    | some f => do
      let v ← init f
      let vs ← collect init fields is
      pure (v :: vs)
    | none => RustGen.D.bad

def setMany : List Nat → List V → List V → List V
  | i :: is, v :: vs, x => setMany is vs (x.set i v)
  | _, _, x => x

theorem d_pure_bind (a : α) (k : α → RustGen.D β) : (pure a >>= k) = k a := rfl

theorem forFields_collect (init : Field → RustGen.D V) (fields : List Field) : ∀ (is : List Nat) (x : List V),
    RustGen.forFields init fields is x = (collect init fields is >>= fun vs => pure (setMany is vs x)) := by
  intro is
  induction is with
  | nil => intro x; rfl
  | cons i is ih =>
    intro x
    rw [RustGen.forFields, collect]
    cases fields[i]? with
    | none => rfl
    | some f =>
      simp only [d_assoc]
      congr 1
      funext v
      rw [ih]
      simp only [d_pure_bind]
      rfl

theorem forFields_congr {init init' : Field → RustGen.D V} {fields : List Field} {is : List Nat} (h : ∀ i ∈ is, ∀ f, fields[i]? = some f → init f = init' f) (x : List V) :
    RustGen.forFields init fields is x = RustGen.forFields init' fields is x := by
  induction is generalizing x with
  | nil => rfl
  | cons i is ih =>
    rw [RustGen.forFields, RustGen.forFields]
    cases hf : fields[i]? with
    | none => rfl
    | some f =>
      simp only []
      rw [h i (by simp) f hf]
      congr 1
      funext v
      exact ih (fun j hj => h j (by simp [hj])) _

theorem forFields_append (init : Field → RustGen.D V) (fields : List Field) (js : List Nat) : ∀ (is : List Nat) (x : List V),
    RustGen.forFields init fields (is ++ js) x = (RustGen.forFields init fields is x >>= fun y => RustGen.forFields init fields js y) := by
  intro is
  induction is with
  | nil => intro x; rfl
  | cons i is ih =>
    intro x
    rw [List.cons_append, RustGen.forFields, RustGen.forFields]
    cases fields[i]? with
    | none => rfl
    | some f =>
      simp only [d_assoc]
      congr 1
      funext v
      exact ih _

/-- The order in which the fields are read. -/
def order (fields : List Field) : List Nat := idx isValue 0 fields ++ idx isSlice 0 fields ++ idx isMsg 0 fields

theorem decBody_collect {S : Schema} {rec : RustGen.Callee} {fields : List Field} :
    RustGen.decBody std S rec fields ⟨idx isMsg 0 fields, idx isSlice 0 fields, idx isValue 0 fields⟩ =
      (collect (decField std S rec) fields (order fields) >>= fun vs => pure (setMany (order fields) vs (List.replicate fields.length .nil))) := by
  have key : ∀ {p : Field → Bool} {init : Field → RustGen.D V} (hp : ∀ f, p f = true → init f = decField std S rec f) (x : List V),
      RustGen.forFields init fields (idx p 0 fields) x = RustGen.forFields (decField std S rec) fields (idx p 0 fields) x := by
    intro p init hp x
    refine forFields_congr (fun i hi f hf => hp f ?_) x
    obtain ⟨g, h1, h2⟩ := ((GoGen.mem_idx _ _ _ _).1 hi).2
    simp at h1
    rw [hf] at h1
    cases h1
    exact h2
  rw [← forFields_collect, order, forFields_append, forFields_append, d_assoc, RustGen.decBody]
  rw [key (p := isValue)]
  · congr 1
    funext x
    rw [key (p := isSlice)]
    · congr 1
      funext y
      rw [key (p := isMsg)]
      intro f hf
      cases f with
      | one k r c => simp [isMsg] at hf; simp [decField, isValue, isSlice, hf]
      | many => cases hf
      | map => rfl
    · intro f hf
      cases f <;> first | rfl | cases hf
  · intro f hf
    cases f with
    | one k r c => simp [isValue] at hf; simp [decField, isValue, hf]
    | many => cases hf
    | map => cases hf

/-! ## Struct expressions -/

theorem collect_length {init : Field → RustGen.D V} {fields : List Field} : ∀ {is : List Nat} {c : Cursor} {vs : List V},
    (collect init fields is c).1 = .ok vs → vs.length = is.length := by
  intro is
  induction is with
  | nil => intro c vs h; cases h; rfl
  | cons i is ih =>
    intro c vs h
    rw [collect] at h
    cases hf : fields[i]? with
    | none => rw [hf] at h; cases h
    | some f =>
      rw [hf] at h
      simp only [d_bind] at h
      rcases hi : init f c with ⟨r, c1⟩
      rw [hi] at h
      cases r with
      | ok v =>
        simp only [] at h
        rcases hr : collect init fields is c1 with ⟨r, c2⟩
        rw [hr] at h
        cases r with
        | ok ws => cases h; simpa using ih (c := c1) (vs := ws) (by rw [hr])
        | _ => cases h
      | _ => cases h

/-- `Sim.map`, for the results that the code can have. -/
theorem Sim.mapR {m : M β} {k : β → M γ} {L : Locals} {x : RustGen.D α} {g : α → β} {g' : α → γ} {l : α → Locals}
    (h : Sim m L x g l) (hk : ∀ a, (∃ c, (x c).1 = .ok a) → Val (k (g a)) (l a) (g' a)) : Sim (m >>= k) L x g' l := by
  intro c
  obtain ⟨L', h1, h2⟩ := h c
  rw [bind_apply, h1]
  rcases hx : x c with ⟨r, c'⟩
  rw [hx] at h2
  cases r with
  | ok a =>
    simp only [early]
    rw [h2 a rfl]
    exact ⟨_, hk a ⟨c, by rw [hx]⟩ c', by simp⟩
  | _ => exact ⟨L', rfl, by simp⟩

theorem Sim.collectR {m : M β} {k : β → M γ} {L : Locals} {α' : Type} {x : RustGen.D α} {y : RustGen.D α'} {g : α → β} {g' : α' → γ} {h' : α → α' → α'} 
    (h : Sim m L x g (fun _ => L)) (hk : ∀ a, Sim (k (g a)) L y (fun b => g' (h' a b)) (fun _ => L)) :
    Sim (m >>= k) L (x >>= fun a => y >>= fun b => Pure.pure (h' a b)) g' (fun _ => L) :=
  Sim.bind h fun a => Sim.mapD (hk a)

variable {f : FileD} {rec : RustGen.Callee}

/-- The fields of some indices. -/
def pick (fs : List FieldD) (is : List Nat) : List FieldD := is.filterMap (fs[·]?)

/-- The initialisers of fields, evaluated. -/
def valued (f : FileD) (gs : List FieldD) (vs : List V) : List (Ident × RV) :=
  (gs.zip vs).map fun p => (snake p.1.name, rv f.schema (structName f) (p.1.toField f) p.2)

theorem initOf_fst (g : FieldD) : (initOf g).1 = snake g.name := by
  rw [initOf]
  split <;> rfl

theorem sim_inits (hP : Ctx P f) (hr : Rec f trait rec) (hL : Env L) {t : Bytes × List FieldD} (ht : t ∈ f.types)
    (hf : ∀ g ∈ t.2, ∀ sig body, fnOf g = some (sig, body) → L.lookup (snake g.name ++ go!"_decode") = some (false, .func sig body)) :
    ∀ is : List Nat, (∀ i ∈ is, i < t.2.length) →
      Sim (evalFields P std trait (runFn P std trait local_) (fieldsOf ((pick t.2 is).map initOf))) L (collect (decField std f.schema rec) (t.2.map (FieldD.toField f)) is)
        (valued f (pick t.2 is)) (fun _ => L) := by
  intro is
  induction is with
  | nil =>
    intro _ c
    exact ⟨L, by simp [pick, fieldsOf, collect, evalFields]; rfl, fun _ _ => rfl⟩
  | cons i is ih =>
    intro hi
    have hlt := hi i (by simp)
    have hg : t.2[i]? = some t.2[i] := List.getElem?_eq_getElem hlt
    have hp : pick t.2 (i :: is) = t.2[i] :: pick t.2 is := by simp [pick, hg]
    have hm : (t.2.map (FieldD.toField f))[i]? = some (t.2[i].toField f) := by simp [hg]
    have h1 := sim_field (P := P) (std := std) (local_ := local_) hP hr hL ht (List.getElem_mem hlt) (hf _ (List.getElem_mem hlt))
    rw [hp, collect, hm]
    show Sim (evalFields P std trait _ (.fcons _ _ (fieldsOf ((pick t.2 is).map initOf)))) _ _ _ _
    rw [evalFields, initOf_fst]
    refine Sim.collectR h1 fun v => ?_
    refine Sim.map (ih fun j hj => hi j (by simp [hj])) fun vs => ?_
    exact Val.pure _ _

theorem setMany_length : ∀ (is : List Nat) (vs x : List V), (setMany is vs x).length = x.length := by
  intro is
  induction is with
  | nil => intro vs x; rfl
  | cons i is ih =>
    intro vs x
    cases vs with
    | nil => rfl
    | cons v vs => rw [setMany, ih]; simp

theorem setMany_other : ∀ (is : List Nat) (vs x : List V) (j : Nat), j ∉ is → (setMany is vs x)[j]? = x[j]? := by
  intro is
  induction is with
  | nil => intro vs x j _; rfl
  | cons i is ih =>
    intro vs x j hj
    cases vs with
    | nil => rfl
    | cons v vs =>
      simp at hj
      rw [setMany, ih _ _ _ hj.2, List.getElem?_set_ne (fun h => hj.1 h.symm)]

/-- The initialiser of a field has the value that the field gets. -/
theorem lookup_valued {fs : List FieldD} (hn : (fs.map fun g => snake g.name).Nodup) : ∀ (is : List Nat) (vs x : List V), is.Nodup → vs.length = is.length →
    (∀ i ∈ is, i < fs.length) → x.length = fs.length → ∀ j ∈ is, ∀ g : FieldD, fs[j]? = some g →
    ∃ w, (setMany is vs x)[j]? = some w ∧ (valued f (pick fs is) vs).lookup (snake g.name) = some (rv f.schema (structName f) (g.toField f) w) := by
  intro is
  induction is with
  | nil => intro vs x _ _ _ _ j hj; cases hj
  | cons i is ih =>
    intro vs x hnd hl hlt hx j hj g hg
    cases vs with
    | nil => cases hl
    | cons v vs =>
      have hi := hlt i (by simp)
      have hp : pick fs (i :: is) = fs[i] :: pick fs is := by simp [pick, List.getElem?_eq_getElem hi]
      rw [List.nodup_cons] at hnd
      rw [setMany, hp]
      show ∃ w, _ ∧ ((snake fs[i].name, rv f.schema (structName f) (fs[i].toField f) v) :: valued f (pick fs is) vs).lookup (snake g.name) = _
      by_cases hij : j = i
      · subst hij
        rw [List.getElem?_eq_getElem hi] at hg
        cases hg
        refine ⟨v, ?_, lookup_cons_self _ _ _⟩
        rw [setMany_other _ _ _ _ hnd.1]
        simp [hx, hi]
      · have hne : snake g.name ≠ snake fs[i].name := by
          intro h
          apply hij
          have hj' : j < fs.length := (List.getElem?_eq_some_iff.1 hg).1
          have h1 : (fs.map fun g => snake g.name)[j]'(by simpa using hj') = (fs.map fun g => snake g.name)[i]'(by simpa using hi) := by
            rw [List.getElem_map, List.getElem_map, ← h, (List.getElem?_eq_some_iff.1 hg).2]
          exact (List.getElem_inj hn).1 h1
        rw [lookup_cons_ne hne]
        refine ih vs _ hnd.2 (by simpa using hl) (fun k hk => hlt k (by simp [hk])) (by simpa using hx) j ?_ g hg
        simpa [hij] using hj

theorem mapM_rvs {xs : List (Ident × RV)} : ∀ (fs : List FieldD) (T : List V), T.length = fs.length →
    (∀ (j : Nat) (g : FieldD) (w : V), fs[j]? = some g → T[j]? = some w → xs.lookup (snake g.name) = some (rv f.schema (structName f) (g.toField f) w)) →
    (fs.map fun g => snake g.name).mapM (fun x => xs.lookup x) = some (rvs f.schema (structName f) (fs.map (FieldD.toField f)) T) := by
  intro fs
  induction fs with
  | nil => intro T hT _; cases T with
    | nil => simp [rvs]
    | cons => cases hT
  | cons g fs ih =>
    intro T hT h
    cases T with
    | nil => cases hT
    | cons w T =>
      have h0 := h 0 g w rfl rfl
      have h1 := ih T (by simpa using hT) fun j g w hg hw => h (j + 1) g w (by simpa using hg) (by simpa using hw)
      simp only [List.map_cons, List.mapM_cons, h0, h1, rvs]
      rfl

theorem order_perm_from : ∀ (fields : List Field) (i : Nat), (idx isValue i fields ++ idx isSlice i fields ++ idx isMsg i fields).Perm (List.range' i fields.length) := by
  intro fields
  induction fields with
  | nil => intro i; simp [idx]
  | cons g fs ih =>
    intro i
    have := ih (i + 1)
    rw [List.length_cons, List.range'_succ, idx, idx, idx]
    have hc : (isValue g = true ∧ isSlice g = false ∧ isMsg g = false) ∨ (isValue g = false ∧ isSlice g = true ∧ isMsg g = false) ∨ (isValue g = false ∧ isSlice g = false ∧ isMsg g = true) := by
      cases g with
      | one k r c => by_cases hk : k = .message <;> simp [isValue, isSlice, isMsg, hk]
      | many => simp [isValue, isSlice, isMsg]
      | map => simp [isValue, isSlice, isMsg]
    rcases hc with ⟨a, b, c⟩ | ⟨a, b, c⟩ | ⟨a, b, c⟩ <;> simp only [a, b, c, if_true, if_false, Bool.false_eq_true]
    · exact List.Perm.cons _ this
    · refine List.Perm.trans ?_ (List.Perm.cons i this)
      rw [List.append_assoc, List.append_assoc]
      exact List.perm_middle
    · refine List.Perm.trans List.perm_middle (List.Perm.cons i this)

theorem order_perm (fields : List Field) : (order fields).Perm (List.range fields.length) := by
  rw [List.range_eq_range']
  exact order_perm_from fields 0

/-- Building the struct. -/
theorem build_valued {t : Bytes × List FieldD} (hP : Ctx P f) (ht : t ∈ f.types) {vs : List V} (hl : vs.length = (order (t.2.map (FieldD.toField f))).length) :
    build P (camel t.1) (valued f (pick t.2 (order (t.2.map (FieldD.toField f)))) vs) =
      some (.struct (camel t.1) (rvs f.schema (structName f) (t.2.map (FieldD.toField f)) (setMany (order (t.2.map (FieldD.toField f))) vs (List.replicate t.2.length .nil)))) := by
  have hp := order_perm (t.2.map (FieldD.toField f))
  simp only [List.length_map] at hp
  generalize ho : order (t.2.map (FieldD.toField f)) = is at *
  have hmem : ∀ i, i ∈ is ↔ i < t.2.length := fun i => by rw [hp.mem_iff]; simp
  have hlen : is.length = t.2.length := by rw [hp.length_eq]; simp
  have hnd : is.Nodup := hp.nodup_iff.2 List.nodup_range
  have hpick : (pick t.2 is).length = is.length := by
    rw [pick]
    have : ∀ js : List Nat, (∀ i ∈ js, i < t.2.length) → (js.filterMap (t.2[·]?)).length = js.length := by
      intro js
      induction js with
      | nil => intro _; rfl
      | cons j js ih =>
        intro h
        simp [List.getElem?_eq_getElem (h j (by simp)), ih fun i hi => h i (by simp [hi])]
    exact this is fun i hi => (hmem i).1 hi
  rw [build, hP.struct t ht]
  simp only [bind, Option.bind]
  rw [if_pos (by simp [valued, hpick, hl, hlen])]
  have hT : (setMany is vs (List.replicate t.2.length .nil)).length = t.2.length := by rw [setMany_length]; simp
  rw [mapM_rvs t.2 _ hT]
  intro j g w hg hw
  obtain ⟨w', h1, h2⟩ := lookup_valued (f := f) (hP.nodup t ht) is vs (List.replicate t.2.length .nil) hnd hl (fun i hi => (hmem i).1 hi) (by simp) j
    ((hmem j).2 (List.getElem?_eq_some_iff.1 hg).1) g hg
  rw [hw] at h1
  cases h1
  exact h2

/-! ## Messages -/

theorem filter_idx {p : Field → Bool} {q : FieldD → Bool} (h : ∀ g : FieldD, q g = p (g.toField f)) : ∀ (pre fs : List FieldD),
    pick (pre ++ fs) (idx p pre.length (fs.map (FieldD.toField f))) = fs.filter q := by
  intro pre fs
  induction fs generalizing pre with
  | nil => rfl
  | cons g fs ih =>
    have := ih (pre ++ [g])
    simp only [List.append_assoc, List.singleton_append, List.length_append, List.length_singleton] at this
    rw [List.map_cons, idx]
    by_cases hg : q g = true
    · rw [← h, if_pos hg, List.filter_cons_of_pos hg, ← this]
      simp [pick]
    · rw [← h, if_neg hg, List.filter_cons_of_neg hg, ← this]

theorem pick_append (fs : List FieldD) (is js : List Nat) : pick fs (is ++ js) = pick fs is ++ pick fs js := by simp [pick]

theorem pick_order (fs : List FieldD) : pick fs (order (fs.map (FieldD.toField f))) = fs.filter FieldD.isValue ++ fs.filter FieldD.isSlice ++ fs.filter FieldD.isMessage := by
  have h1 : ∀ g : FieldD, g.isValue = isValue (g.toField f) := by
    intro g
    rw [FieldD.isValue, FieldD.toField]
    cases g.shape <;> rfl
  have h2 : ∀ g : FieldD, g.isSlice = isSlice (g.toField f) := by
    intro g
    rw [FieldD.isSlice, FieldD.toField]
    cases g.shape <;> rfl
  have h3 : ∀ g : FieldD, g.isMessage = isMsg (g.toField f) := by
    intro g
    rw [FieldD.isMessage, FieldD.toField]
    cases g.shape <;> rfl
  have e1 := filter_idx h1 [] fs
  have e2 := filter_idx h2 [] fs
  have e3 := filter_idx h3 [] fs
  simp only [List.nil_append, List.length_nil] at e1 e2 e3
  rw [order, pick_append, pick_append, e1, e2, e3]


/-- Declared functions. -/
def declared (ps : List (Sig × Stmt)) : Locals := ps.map fun p => (p.1.name, false, .func p.1 p.2)

theorem body_fns {rest : List Stmt} {y : RustGen.D α} {g : α → RV} : ∀ (ps : List (Sig × Stmt)) (L : Locals),
    Body (exec P std trait local_ (block rest)) (declared ps.reverse ++ L) y g →
    Body (exec P std trait local_ (block (ps.map (fun p => .func p.1 p.2) ++ rest))) L y g := by
  intro ps
  induction ps with
  | nil => intro L h; exact h
  | cons p ps ih =>
    intro L h
    intro c
    have e : declared (p :: ps).reverse ++ L = declared ps.reverse ++ ((p.1.name, false, .func p.1 p.2) :: L) := by simp [declared]
    rw [e] at h
    obtain ⟨r, L', h1, h2⟩ := ih _ h c
    refine ⟨r, L', ?_, h2⟩
    rw [← h1, List.map_cons, List.cons_append, exec_cons, exec]
    rfl

theorem env_declared {ps : List (Sig × Stmt)} (h : ∀ p ∈ ps, 4 < p.1.name.length) (hL : Env L) : Env (declared ps ++ L) := by
  induction ps with
  | nil => exact hL
  | cons p ps ih => exact (ih fun q hq => h q (by simp [hq])).long (h p (by simp)) _ _

theorem lookup_unique {n : Ident} {x : Bool × RV} {l : Locals} (h : (n, x) ∈ l) (hu : ∀ y, (n, y) ∈ l → y = x) (L : Locals) : (l ++ L).lookup n = some x := by
  induction l with
  | nil => cases h
  | cons p l ih =>
    obtain ⟨m, y⟩ := p
    by_cases hm : n = m
    · subst hm
      rw [List.cons_append, lookup_cons_self, hu y (by simp)]
    · rw [List.cons_append, lookup_cons_ne hm]
      refine ih ?_ fun z hz => hu z (by simp [hz])
      simpa [hm] using h

theorem fnOf_name {g : FieldD} {p : Sig × Stmt} (h : fnOf g = some p) : p.1.name = snake g.name ++ go!"_decode" := by
  rw [fnOf] at h
  cases hs : g.shape with
  | one => rw [hs] at h; cases h
  | many => rw [hs] at h; cases h; rfl
  | map => rw [hs] at h; cases h; rfl

/-- The functions of a message. -/
def fnsOf (fs : List FieldD) : List (Sig × Stmt) := (fs.filter FieldD.isSlice ++ fs.filter FieldD.isMessage).filterMap fnOf

theorem fns_stmts (fs : List FieldD) : (fs.filter FieldD.isSlice).map (fun f => sliceFn (snake f.name) f.kind (camel f.type)) ++ (fs.filter FieldD.isMessage).flatMap mapFns =
    (fnsOf fs).map fun p => .func p.1 p.2 := by
  rw [fnsOf, List.filterMap_append, List.map_append]
  congr 1
  · have : ∀ gs : List FieldD, (∀ g ∈ gs, g.isSlice = true) → gs.map (fun f => sliceFn (snake f.name) f.kind (camel f.type)) = (gs.filterMap fnOf).map fun p => .func p.1 p.2 := by
      intro gs
      induction gs with
      | nil => intro _; rfl
      | cons g gs ih =>
        intro h
        have hg := h g (by simp)
        have e : fnOf g = some (match sliceFn (snake g.name) g.kind (camel g.type) with | .func s b => (s, b) | _ => (encodeSig, .skip)) := by
          rw [FieldD.isSlice] at hg
          rw [fnOf]
          cases hs : g.shape with
          | many => rfl
          | _ => rw [hs] at hg; cases hg
        rw [List.map_cons, List.filterMap_cons, e, ih fun x hx => h x (by simp [hx])]
        rfl
    exact this _ fun g hg => (List.mem_filter.1 hg).2
  · have : ∀ gs : List FieldD, (∀ g ∈ gs, g.isMessage = true) → gs.flatMap mapFns = (gs.filterMap fnOf).map fun p => .func p.1 p.2 := by
      intro gs
      induction gs with
      | nil => intro _; rfl
      | cons g gs ih =>
        intro h
        have hg := h g (by simp)
        rw [FieldD.isMessage] at hg
        rw [List.flatMap_cons, List.filterMap_cons, ih fun x hx => h x (by simp [hx])]
        rw [mapFns, fnOf]
        cases hs : g.shape with
        | many => rw [hs] at hg; cases hg
        | one => rfl
        | map => rfl
    exact this _ fun g hg => (List.mem_filter.1 hg).2

theorem mem_fnsOf {fs : List FieldD} {p : Sig × Stmt} : p ∈ fnsOf fs ↔ ∃ g ∈ fs, fnOf g = some p := by
  simp only [fnsOf, List.mem_filterMap, List.mem_append, List.mem_filter]
  constructor
  · rintro ⟨g, h, h'⟩
    exact ⟨g, by rcases h with h | h <;> exact h.1, h'⟩
  · rintro ⟨g, h, h'⟩
    refine ⟨g, ?_, h'⟩
    rw [fnOf] at h'
    rw [FieldD.isSlice, FieldD.isMessage]
    cases hs : g.shape with
    | one => rw [hs] at h'; cases h'
    | many => simp [h]
    | map => simp [h]

theorem inits_eq (fs : List FieldD) : (fs.filter FieldD.isValue).map (fun f => (snake f.name, initValue f.kind (camel f.type))) ++
      (fs.filter FieldD.isSlice).map (fun f => (snake f.name, initCall (snake f.name) go!"InvalidArray")) ++ (fs.filter FieldD.isMessage).map initMessageField =
    (pick fs (order (fs.map (FieldD.toField f)))).map initOf := by
  rw [pick_order, List.map_append, List.map_append]
  congr 1
  · congr 1
    · refine List.map_congr_left fun g hg => ?_
      have hg := (List.mem_filter.1 hg).2
      rw [FieldD.isValue] at hg
      rw [initOf]
      cases hs : g.shape with
      | one c => rw [hs] at hg; simp at hg; simp [hg]
      | _ => rw [hs] at hg; cases hg
    · refine List.map_congr_left fun g hg => ?_
      have hg := (List.mem_filter.1 hg).2
      rw [FieldD.isSlice] at hg
      rw [initOf]
      cases hs : g.shape with
      | many => rfl
      | _ => rw [hs] at hg; cases hg
  · refine List.map_congr_left fun g hg => ?_
    have hg := (List.mem_filter.1 hg).2
    rw [FieldD.isMessage] at hg
    rw [initOf, initMessageField]
    cases hs : g.shape with
    | one c => rw [hs] at hg; simp at hg; simp [hg]
    | map => rfl
    | many => rw [hs] at hg; cases hg

theorem inj_of_nodup {fn : α → β} : ∀ {l : List α}, (l.map fn).Nodup → ∀ {a b : α}, a ∈ l → b ∈ l → fn a = fn b → a = b := by
  intro l
  induction l with
  | nil => intro _ a b ha; cases ha
  | cons x l ih =>
    intro h a b ha hb he
    rw [List.map_cons, List.nodup_cons] at h
    rcases List.mem_cons.1 ha with rfl | ha' <;> rcases List.mem_cons.1 hb with rfl | hb'
    · rfl
    · exact absurd (List.mem_map.2 ⟨b, hb', he.symm⟩) h.1
    · exact absurd (List.mem_map.2 ⟨a, ha', he⟩) h.1
    · exact ih h.2 ha' hb' he

/-- The body of `decode`, one level of calls. -/
theorem call_decode (hP : Ctx P f) (hr : Rec f trait rec) {m : Nat} {t : Bytes × List FieldD} (hm : f.types[m]? = some t) (L : Locals) :
    ∃ sig body, findImpl P go!"Decode" (camel t.1) = some (sig, body) ∧
      Call (runFn P std trait (runFn P std trait local_) sig body [.cursor]) L
        (do if ← RustGen.call (Rust.decode_none std) then pure none
            else do
              RustGen.probeError std
              match RustGen.getDecodingFields (f.schema.fields m) with
              | none => RustGen.D.bad
              | some d => do
                let vs ← RustGen.decBody std f.schema rec (f.schema.fields m) d
                pure (some vs))
        (optRV fun vs => .struct (camel t.1) (rvs f.schema (structName f) (f.schema.fields m) vs)) := by
  have ht : t ∈ f.types := List.mem_of_getElem? hm
  obtain ⟨sig, body, h1, h2⟩ := hP.decode t ht
  refine ⟨sig, body, h2, ?_⟩
  rw [decodeImpl] at h1
  injection h1 with _ _ hs hb
  subst hs hb
  have hfl : f.schema.fields m = t.2.map (FieldD.toField f) := by simp [FileD.schema, Schema.fields, hm]
  rw [hfl, List.append_assoc _ _ (List.flatMap _ _), fns_stmts, inits_eq (f := f)]
  refine call_runFn (L0 := [(go!"b", false, .cursor)]) rfl ?_ L
  refine body_noneCheck hP.ready env_cursor (body_cons (simS_errorCheck hP.ready env_cursor) fun _ => body_fns _ _ ?_)
  have hdl : RustGen.getDecodingFields (t.2.map (FieldD.toField f)) = some ⟨idx isMsg 0 (t.2.map (FieldD.toField f)), idx isSlice 0 (t.2.map (FieldD.toField f)),
      idx isValue 0 (t.2.map (FieldD.toField f))⟩ := by
    refine RustGen.decLoop_eq _ 0 ?_
    intro x hx
    obtain ⟨g, hg, rfl⟩ := List.mem_map.1 hx
    exact hP.supported t ht g hg
  rw [hdl]
  have hL : Env (declared (fnsOf t.2).reverse ++ [(go!"b", false, RV.cursor)]) := by
    refine env_declared (fun p hp => ?_) env_cursor
    obtain ⟨g, _, hg⟩ := mem_fnsOf.1 (List.mem_reverse.1 hp)
    rw [fnOf_name hg]
    exact long_decode _
  refine body_okSome (hL.base _ (by decide)) (hL.base _ (by decide)) (by intro a er h; cases h) ?_
  rw [eval]
  simp only [decBody_collect]
  refine Sim.mapD ?_
  refine Sim.mapR (sim_inits hP hr hL ht ?_ _ ?_) ?_
  · intro g hg sig body hf
    refine lookup_unique (List.mem_map.2 ⟨(sig, body), List.mem_reverse.2 (mem_fnsOf.2 ⟨g, hg, hf⟩), by rw [fnOf_name hf]⟩) ?_ _
    intro y hy
    obtain ⟨p, hp, he⟩ := List.mem_map.1 hy
    obtain ⟨g', hg', hf'⟩ := mem_fnsOf.1 (List.mem_reverse.1 hp)
    rw [fnOf_name hf'] at he
    have hn : snake g'.name = snake g.name := List.append_cancel_right (Prod.mk.inj he).1
    have hgg : g' = g := inj_of_nodup (hP.nodup t ht) hg' hg hn
    subst hgg
    rw [hf] at hf'
    cases hf'
    exact (Prod.mk.inj he).2.symm
  · intro i hi
    have := (order_perm _).mem_iff.1 hi
    simpa using this
  · rintro vs ⟨c, hc⟩
    rw [build_valued hP ht (collect_length hc)]
    simpa using Val.need rfl _

/-- Every call of `decode` in the program does what the model does. -/
theorem rec_decode (hP : Ctx P f) : ∀ n, Rec f (runTrait P std n) (RustGen.decode std f.schema n) := by
  intro n
  induction n with
  | zero => intro m t _ L c; rfl
  | succ n ih =>
    intro m t hm L
    obtain ⟨sig, body, h1, h2⟩ := call_decode (std := std) (local_ := fun _ _ _ => bad) hP ih hm L
    rw [runTrait, h1]
    exact h2

end

end RustRun
