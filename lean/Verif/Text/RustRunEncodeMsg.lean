import Verif.Text.RustRunEncode

/-!
# Running generated Rust code: `encode` of a message
-/

namespace RustRun

open Utils RustAst RustText
open Text hiding Tok
open Gen (PKind Scalar V Field Schema OfFields OfElems depths)
open GoText (FieldD FileD)
open Rust (Cursor Std)
open GoGen (idx isValue isSlice isMsg itemOf)

section
variable {P : List Item} {std : Std} {trait : Ident → Ident → List RV → M RV} {local_ : Sig → Stmt → List RV → M RV} {L : Locals} {α β γ : Type}

/-! ## Statements -/

theorem wr_cons {s : Stmt} {ss : List Stmt} {is js : List Spec.Item} {r : Option RV} (h : Wr (exec P std trait local_ s) L is .none)
    (hs : Wr (exec P std trait local_ (block ss)) L js r) : Wr (exec P std trait local_ (block (s :: ss))) L (is ++ js) r := by
  rw [exec_cons]
  exact h.bind hs

theorem wr_expr {e : Expr} {is : List Spec.Item} {v : RV} (h : Wr (eval P std trait local_ e) L is v) : Wr (exec P std trait local_ (.expr e)) L is .none := by
  rw [exec]
  exact h.map (Val.pure _ _)

theorem wr_block1 {s : Stmt} {is : List Spec.Item} (h : Wr (exec P std trait local_ s) L is .none) : Wr (exec P std trait local_ (block [s])) L is .none := by
  have := wr_cons (ss := []) (r := .none) h (Val.wr0 (by show Val (exec P std trait local_ .skip) L .none; rw [exec]; exact Val.pure _ _))
  simpa using this

theorem wr_round1 {body : M (Option RV)} {n : Ident} {v : RV} {is : List Spec.Item} (h : Wr body ((n, false, v) :: L) is .none) :
    Wr (inBlock (declareAll [(n, v)] >>= fun _ => noValue body)) L is () := by
  intro c c' hc
  have h1 : (declareAll [(n, v)] >>= fun _ => noValue body) ⟨c, L⟩ = (.ok (), ⟨c', (n, false, v) :: L⟩) := by
    rw [bind_ok (x := declareAll [(n, v)]) (s := ⟨c, L⟩) (s' := ⟨c, (n, false, v) :: L⟩) (a := ()) rfl, noValue, bind_ok (h c c' hc)]
    rfl
  simp only [inBlock, h1]
  simp

theorem wr_round2 {body : M (Option RV)} {n m : Ident} {v w : RV} {is : List Spec.Item} (h : Wr body ((m, false, w) :: (n, false, v) :: L) is .none) :
    Wr (inBlock (declareAll [(n, v), (m, w)] >>= fun _ => noValue body)) L is () := by
  intro c c' hc
  have h1 : (declareAll [(n, v), (m, w)] >>= fun _ => noValue body) ⟨c, L⟩ = (.ok (), ⟨c', (m, false, w) :: (n, false, v) :: L⟩) := by
    rw [bind_ok (x := declareAll [(n, v), (m, w)]) (s := ⟨c, L⟩) (s' := ⟨c, (m, false, w) :: (n, false, v) :: L⟩) (a := ()) rfl, noValue, bind_ok (h c c' hc)]
    rfl
  simp only [inBlock, h1]
  have e : ((m, false, w) :: (n, false, v) :: L).length - L.length = 2 := by simp; omega
  rw [e]
  rfl

theorem wr_loop_cons {body : M (Option RV)} {r : List (Ident × RV)} {rs : List (List (Ident × RV))} {is js : List Spec.Item}
    (h : Wr (inBlock (declareAll r >>= fun _ => noValue body)) L is ()) (hs : Wr (loop body rs) L js ()) : Wr (loop body (r :: rs)) L (is ++ js) () := by
  rw [loop]
  exact h.bind hs

theorem wr_loop_nil {body : M (Option RV)} : Wr (loop body []) L [] () := by
  rw [loop]
  exact (Val.pure _ _).wr0

/-! ## Messages inside -/

variable {f : FileD} {n : Nat}

/-- Calls of `encode` for values that are nested at most `n` deep. -/
def RecE (f : FileD) (trait : Ident → Ident → List RV → M RV) (n : Nat) : Prop :=
  ∀ m t vs items, f.types[m]? = some t → OfFields f.schema (t.2.map (FieldD.toField f)) vs → RustGen.Encode f.schema m (.msg vs) = some items → depths vs + 1 ≤ n →
    ∀ L, Wr (trait go!"Encode" (camel t.1) [.ref (structOf f t vs), .cursor]) L items (.ok .cursor)

theorem encode_of_part {S : Schema} {k : PKind} {r : Nat} {c : Bool} {ws : List V} {q : RustGen.Part} (h : RustGen.part S (.one k r c) (.msg ws) = some q) :
    ∃ calls, q = .encode calls ∧ RustGen.Encode S r (.msg ws) = some calls := by
  have hk : k = .message := by
    rw [RustGen.part] at h
    by_cases hk : k = .message
    · exact hk
    · rw [if_neg hk] at h; cases h
  subst hk
  have h1 : RustGen.part S (.one .message r false) (.msg ws) = some q := by
    rw [← h, RustGen.part, RustGen.part]
  have h2 := h1
  rw [RustGen.part, if_pos rfl] at h2
  cases hp : RustGen.parts S (S.fields r) ws with
  | none => rw [hp] at h2; cases h2
  | some ps =>
    cases he : RustGen.getEncodingFields (S.fields r) with
    | none => rw [hp, he] at h2; cases h2
    | some e =>
      cases ha : RustGen.arrange e ps with
      | none => simp only [hp, he, ha, bind, Option.bind] at h2; cases h2
      | some calls =>
        simp only [hp, he, ha, bind, Option.bind] at h2
        cases h2
        refine ⟨calls, rfl, ?_⟩
        rw [RustGen.Encode, h1]

/-- `e.encode(b)?` -/
theorem wr_message (hb : L.lookup go!"b" = some (false, .cursor)) (hr : RecE f trait n) {r : Nat} {t : Bytes × List FieldD} (ht : f.types[r]? = some t) {c : Bool} {v : V}
    (hv : v.OfField f.schema (.one .message r c)) {calls : List Spec.Item} (hp : RustGen.part f.schema (.one .message r c) v = some (.encode calls)) (hd : v.depth ≤ n) {e : Expr} {w : RV}
    (he : Val (eval P std trait local_ e) L w) (hw : peel w = rv f.schema (structName f) (.one .message r c) v) :
    Wr (eval P std trait local_ (.tr (.method e go!"encode" (args1 vb)))) L calls .cursor := by
  cases v with
  | msg ws =>
    obtain ⟨calls', h1, h2⟩ := encode_of_part hp
    cases h1
    simp only [V.OfField] at hv
    have hfl : f.schema.fields r = t.2.map (FieldD.toField f) := by simp [FileD.schema, Schema.fields, ht]
    rw [hfl] at hv
    have hx : peel w = structOf f t ws := by
      rw [hw, structOf]
      simp [rv, structName, ht, hfl]
    refine Wr.tr ?_
    rw [eval_method rfl]
    refine he.wr ((args_one (eval_vb hb)).wr ?_)
    unfold method
    rw [hx, structOf]
    simp only [if_true]
    exact hr r t ws _ ht hv.2 h2 (by simpa [V.depth] using hd) L
  | scalar s => exact absurd hv (by cases s <;> exact id)
  | nil => rw [RustGen.part] at hp; cases hp; all_goals (intros; contradiction)
  | slice => exact absurd hv (by simp [V.OfField])
  | map => exact absurd hv (by simp [V.OfField])
  | nilMap => exact absurd hv (by simp [V.OfField])

/-! ## Repeated fields -/

theorem elemParts_cons {S : Schema} {fd : Field} {v : V} {vs : List V} {ps : List RustGen.Part} (h : RustGen.elemParts S fd (v :: vs) = some ps) :
    ∃ p qs, RustGen.part S fd v = some p ∧ RustGen.elemParts S fd vs = some qs ∧ ps = p :: qs := by
  rw [RustGen.elemParts] at h
  cases hp : RustGen.part S fd v with
  | none => rw [hp] at h; cases h
  | some p =>
    cases hq : RustGen.elemParts S fd vs with
    | none => rw [hp, hq] at h; cases h
    | some qs => rw [hp, hq] at h; cases h; exact ⟨p, qs, rfl, rfl, rfl⟩

theorem elemParts_length {S : Schema} {fd : Field} : ∀ {vs : List V} {ps : List RustGen.Part}, RustGen.elemParts S fd vs = some ps → ps.length = vs.length := by
  intro vs
  induction vs with
  | nil => intro ps h; rw [RustGen.elemParts] at h; cases h; rfl
  | cons v vs ih =>
    intro ps h
    obtain ⟨p, qs, _, h2, rfl⟩ := elemParts_cons h
    simp [ih h2]

/-- The loop over the elements. -/
theorem wr_elems {S : Schema} {name : Nat → Ident} {fd : Field} {fn : RustGen.Part → Option (List Spec.Item)} {body : M (Option RV)} {x : Ident} : ∀ (vs : List V) (ps : List RustGen.Part)
    (es : List Spec.Item), RustGen.elemParts S fd vs = some ps → RustGen.concatM fn ps = some es →
    (∀ v ∈ vs, ∀ p is, RustGen.part S fd v = some p → fn p = some is → Wr body ((x, false, .ref (rv S name fd v)) :: L) is .none) →
    Wr (loop body ((vs.map (rv S name fd)).map fun v => [(x, .ref v)])) L es () := by
  intro vs
  induction vs with
  | nil =>
    intro ps es hp he _
    rw [RustGen.elemParts] at hp
    cases hp
    cases he
    exact wr_loop_nil
  | cons v vs ih =>
    intro ps es hp he hb
    obtain ⟨p, qs, h1, h2, rfl⟩ := elemParts_cons hp
    obtain ⟨a, as, h3, h4, rfl⟩ := concatM_cons he
    refine wr_loop_cons (wr_round1 (hb v (by simp) p a h1 h3)) (ih qs as h2 h4 fun w hw => hb w (by simp [hw]))

theorem header_array (n : Nat) (k : Rust.Kind) : Rust.encodeItem (.slice (BitVec.ofNat 32 n) k.toU8) = Rust.encode_array n k := by
  have hk : Rust.Kind.ofU8 k.toU8 = k := by cases k <;> rfl
  simp only [Rust.encodeItem, Rust.encode_array, BitVec.ofNat_toNat, hk]
  simp

theorem header_map (n : Nat) (k v : Rust.Kind) : Rust.encodeItem (.map (BitVec.ofNat 32 n) k.toU8 v.toU8) = Rust.encode_map n k v := by
  have hk : ∀ k : Rust.Kind, Rust.Kind.ofU8 k.toU8 = k := by intro k; cases k <;> rfl
  simp only [Rust.encodeItem, Rust.encode_map, BitVec.ofNat_toNat, hk]
  simp

/-- A value that no reference and no number is. -/
theorem eval_len {e : Expr} {v : RV} {m : Nat} (he : Val (eval P std trait local_ e) L v) (hv : method P std trait v go!"len" [] = pure (.usize m)) :
    Val (eval P std trait local_ (len e)) L (.usize m) := by
  rw [len, eval_method rfl]
  refine he.bind (args_nil.bind ?_)
  rw [hv]
  exact Val.pure _ _

variable {t : Bytes × List FieldD} {vs : List V} {ps : List RustGen.Part}

theorem eval_refVal {e : Expr} {v : RV} (h : Val (eval P std trait local_ e) L v) : Val (eval P std trait local_ (.ref e)) L (.ref v) := by
  rw [eval]
  exact h.bind (Val.pure _ _)

/-- The number of the type of a message field. -/
theorem closed_type (hP : Ctx P f) (ht : t ∈ f.types) {g : FieldD} (hg : g ∈ t.2) (hk : g.kind = .message) : ∃ t', f.types[f.ref g.kind g.type]? = some t' := by
  obtain ⟨t', h, _⟩ := hP.closed t ht g hg hk
  rw [hk]
  exact ⟨t', h⟩

theorem wr_slice (h : Writing P f t vs ps) (hL : Own L (structOf f t vs)) (hr : RecE f trait n) (hd : depths vs ≤ n) {i : Nat} (hi : i < t.2.length) {g : FieldD} (hg : t.2[i]? = some g)
    (hs : g.isSlice = true) {calls : List Spec.Item} (hc : RustGen.emitSlice ps i = some calls) {rest : List Stmt} {js : List Spec.Item} {r : Option RV}
    (hrest : Wr (exec P std trait local_ (block rest)) L js r) :
    Wr (exec P std trait local_ (block (encSlice (snake g.name) g.kind ++ rest))) L (calls ++ js) r := by
  obtain ⟨g', v, p, hg', hgm, hv, hvm, hty, hp, hpart, hsup⟩ := h.get hi
  rw [hg] at hg'
  cases hg'
  have hP := h.ctx
  have hsh : g.shape = .many := by
    rw [FieldD.isSlice] at hs
    cases hsh : g.shape <;> rw [hsh] at hs <;> first | rfl | cases hs
  have hfl : g.toField f = .many g.kind (f.ref g.kind g.type) := by rw [FieldD.toField, hsh]
  have hsf := eval_sf (P := P) (std := std) (trait := trait) (local_ := local_) hP h.mem hL hg hv
  rw [hfl] at hty hpart hsup hsf
  simp only [Field.RustSupported] at hsup
  rw [RustGen.emitSlice, hp] at hc
  cases v with
  | slice ws =>
    simp only [V.OfField] at hty
    have htys := (GoGen.ofElems_iff _ _ _).1 hty.2
    simp only [rv, rvElems_eq] at hsf
    rw [RustGen.part] at hpart
    cases hq : RustGen.elemParts f.schema (.one g.kind (f.ref g.kind g.type) false) ws with
    | none => rw [hq] at hpart; cases hpart
    | some qs =>
      simp only [hq, bind, Option.bind] at hpart
      have hds : ∀ w ∈ ws, w.depth ≤ n := fun w hw => Nat.le_trans (Gen.depth_le_depths hw) (Nat.le_trans (by simpa [V.depth] using Gen.depth_le_depths hvm) hd)
      -- the kind, the elements
      have key : ∃ kk es, RustGen.getKind g.kind = some kk ∧ calls = .slice (BitVec.ofNat 32 ws.length) kk.toU8 :: es ∧
          Wr (exec P std trait local_ (.for1 go!"item" (.ref (sf (snake g.name))) (block [match g.kind with
            | .message => .expr (.tr (.method (var go!"item") go!"encode" (args1 vb)))
            | .string => .expr (bcall (encoder g.kind) (args1 (.ref (var go!"item"))))
            | k => .expr (bcall (encoder k) (args1 (var go!"item")))]))) L es .none := by
        have loopof : ∀ (fn : RustGen.Part → Option (List Spec.Item)) (es : List Spec.Item) (s : Stmt), RustGen.concatM fn qs = some es →
            (∀ v ∈ ws, ∀ p is, RustGen.part f.schema (.one g.kind (f.ref g.kind g.type) false) v = some p → fn p = some is →
              Wr (exec P std trait local_ s) ((go!"item", false, .ref (rv f.schema (structName f) (.one g.kind (f.ref g.kind g.type) false) v)) :: L) is .none) →
            Wr (exec P std trait local_ (.for1 go!"item" (.ref (sf (snake g.name))) (block [s]))) L es .none := by
          intro fn es s he hb
          rw [exec]
          refine (eval_refVal hsf).wr ?_
          simp only [done]
          exact (wr_elems ws qs es hq he fun v hv p is h1 h2 => wr_block1 (hb v hv p is h1 h2)).map (Val.pure _ _)
        have hitem : ∀ v, Own ((go!"item", false, v) :: L) (structOf f t vs) := fun v => hL.cons (by decide) (by decide) _ _
        by_cases hm : g.kind = .message
        · rw [RustGen.emitElems, hm] at hpart
          simp only [RustGen.encodeLUT, if_true, bind, Option.bind] at hpart
          cases he : RustGen.concatM RustGen.emitElemMessage qs with
          | none => rw [he] at hpart; cases hpart
          | some es =>
            rw [he] at hpart
            cases hpart
            cases hc
            refine ⟨.Any, es, by rw [hm]; rfl, rfl, ?_⟩
            obtain ⟨t', ht'⟩ := closed_type hP h.mem hgm hm
            have := loopof RustGen.emitElemMessage es (.expr (.tr (.method (var go!"item") go!"encode" (args1 vb)))) he ?_
            · rw [hm]; exact this
            intro v hv p is h1 h2
            cases p with
            | encode cs =>
              cases h2
              have htv := htys v hv
              rw [hm] at ht' h1 htv ⊢
              refine wr_expr (wr_message (hitem _).b hr ht' htv h1 (hds v hv) (eval_var (lookup_cons_self _ _ _) rfl) ?_)
              cases hx : rv f.schema (structName f) (.one .message (f.ref .message g.type) false) v with
              | ref w => cases v <;> simp [rv] at hx
              | _ => rfl
            | scalar => cases h2
            | slice => cases h2
        · have hk : g.kind = .string ∨ g.kind = .bytes := by rcases hsup with h | h | h <;> simp [h] at hm ⊢
          have hm' : ∃ m kk ty, RustGen.encodeLUT g.kind = some m ∧ RustGen.kindLUT g.kind = some kk ∧ RustGen.findElem g.kind (f.ref g.kind g.type) false = some ty ∧ RustGen.getKind g.kind = some kk ∧
              RustGen.accepts m .ref ty = true := by
            rcases hk with hk | hk <;> rw [hk] <;> exact ⟨_, _, _, rfl, rfl, rfl, rfl, rfl⟩
          obtain ⟨m, kk, ty, e1, e2, e3, e4, e5⟩ := hm'
          rw [RustGen.emitElems] at hpart
          simp only [e1, e2, e3, e5, if_true, bind, Option.bind] at hpart
          cases he : RustGen.concatM (RustGen.emitElemScalar m) qs with
          | none => rw [he] at hpart; cases hpart
          | some es =>
            rw [he] at hpart
            cases hpart
            cases hc
            refine ⟨kk, es, e4, rfl, ?_⟩
            have hsc : ∀ a : Expr, (∀ v, ∃ w, Val (eval P std trait local_ a) ((go!"item", false, .ref v) :: L) (.ref w) ∧ peel w = peel v) →
                Wr (exec P std trait local_ (.for1 go!"item" (.ref (sf (snake g.name))) (block [.expr (bcall (encoder g.kind) (args1 a))]))) L es .none := by
              intro a ha
              refine loopof (RustGen.emitElemScalar m) es _ he ?_
              intro v hv p is h1 h2
              have htv := htys v hv
              cases v with
              | scalar s =>
                simp only [V.OfField] at htv
                rw [RustGen.part, e3] at h1
                cases h1
                rw [RustGen.emitElemScalar] at h2
                obtain rfl := emitScalar_item e1 htv h2
                obtain ⟨w, h3, h4⟩ := ha (.scalar s)
                have := wr_method hP.ready (e := vb) (is := []) (Val.wr0 (eval_vb (hitem (.ref (.scalar s))).b)) (encoder_plain g.kind) (args_one h3)
                  (wr_scalar (std := std) htv (by rw [Passes, if_pos hk]; exact ⟨w, rfl, h4⟩))
                exact wr_expr this.tr
              | nil => exact absurd htv (by simpa [V.OfField] using hm)
              | msg => exact absurd htv.1 hm
              | slice => exact absurd htv (by simp [V.OfField])
              | map => exact absurd htv (by simp [V.OfField])
              | nilMap => exact absurd htv (by simp [V.OfField])
            rcases hk with hk | hk
            · have := hsc (.ref (var go!"item")) fun v => ⟨.ref v, eval_refVal (eval_var (lookup_cons_self _ _ _) rfl), rfl⟩
              rw [hk] at this ⊢
              exact this
            · have := hsc (var go!"item") fun v => ⟨v, eval_var (lookup_cons_self _ _ _) rfl, rfl⟩
              rw [hk] at this ⊢
              exact this
      obtain ⟨kk, es, hkk, rfl, hloop⟩ := key
      have hhead : Wr (eval P std trait local_ (bcall go!"encode_array" (args2 (len (sf (snake g.name))) (kindOf g.kind)))) L [.slice (BitVec.ofNat 32 ws.length) kk.toU8] .cursor := by
        refine (wr_method hP.ready (e := vb) (is := []) (Val.wr0 (eval_vb hL.b)) rfl (args_cons (eval_len (m := ws.length) hsf ?_) (args_one (eval_kindOf hP.ready hkk))) ?_).tr
        · unfold method
          simp [peel]
        · exact wr_item (header_array _ _)
      have := wr_cons (wr_expr hhead) (wr_cons hloop hrest)
      exact this
  | scalar => exact absurd hty (by simp [V.OfField])
  | nil => exact absurd hty (by simp [V.OfField])
  | msg => exact absurd hty (by simp [V.OfField])
  | map => exact absurd hty (by simp [V.OfField])
  | nilMap => exact absurd hty (by simp [V.OfField])

/-! ## Maps -/

theorem emitEntries_cons {kk k : PKind} {s : Scalar} {ks : List Scalar} {p : RustGen.Part} {qs : List RustGen.Part} {es : List Spec.Item}
    (h : RustGen.emitEntries kk k (s :: ks) (p :: qs) = some es) :
    ∃ a b c, RustGen.emitKey kk s = some a ∧ RustGen.emitMapValue k p = some b ∧ RustGen.emitEntries kk k ks qs = some c ∧ es = a ++ b ++ c := by
  rw [RustGen.emitEntries] at h
  cases ha : RustGen.emitKey kk s with
  | none => rw [ha] at h; cases h
  | some a =>
    cases hb : RustGen.emitMapValue k p with
    | none => rw [ha, hb] at h; cases h
    | some b =>
      cases hc : RustGen.emitEntries kk k ks qs with
      | none => simp only [ha, hb, hc, bind, Option.bind] at h; cases h
      | some c => simp only [ha, hb, hc, bind, Option.bind] at h; cases h; exact ⟨a, b, c, rfl, rfl, rfl, rfl⟩

/-- The loop over the entries. -/
theorem wr_entries {S : Schema} {name : Nat → Ident} {fd : Field} {kk k : PKind} {body : M (Option RV)} {x y : Ident} : ∀ (ws : List V) (ks : List Scalar) (qs : List RustGen.Part)
    (es : List Spec.Item), RustGen.elemParts S fd ws = some qs → RustGen.emitEntries kk k ks qs = some es →
    (∀ s ∈ ks, ∀ v ∈ ws, ∀ p a b, RustGen.part S fd v = some p → RustGen.emitKey kk s = some a → RustGen.emitMapValue k p = some b →
      Wr body ((y, false, .ref (rv S name fd v)) :: (x, false, .ref (.scalar s)) :: L) (a ++ b) .none) →
    Wr (loop body ((ks.zip (ws.map (rv S name fd))).map fun p => [(x, .ref (.scalar p.1)), (y, .ref p.2)])) L es () := by
  intro ws
  induction ws with
  | nil =>
    intro ks qs es hp he _
    rw [RustGen.elemParts] at hp
    cases hp
    cases ks with
    | nil => cases he; exact wr_loop_nil
    | cons => cases he
  | cons v ws ih =>
    intro ks qs es hp he hb
    obtain ⟨p, qs, h1, h2, rfl⟩ := elemParts_cons hp
    cases ks with
    | nil => cases he
    | cons s ks =>
      obtain ⟨a, b, c, h3, h4, h5, rfl⟩ := emitEntries_cons he
      exact wr_loop_cons (wr_round2 (hb s (by simp) v (by simp) p a b h1 h3 h4)) (ih ks qs c h2 h5 fun s hs v hv => hb s (by simp [hs]) v (by simp [hv]))

theorem eval_deref {e : Expr} {v : RV} (h : Val (eval P std trait local_ e) L (.ref v)) : Val (eval P std trait local_ (.deref e)) L v := by
  rw [eval]
  exact h.bind (Val.pure _ _)

theorem rv_peel (S : Schema) (name : Nat → Ident) (fld : Field) (v : V) : peel (rv S name fld v) = rv S name fld v := by
  cases fld <;> cases v <;> simp only [rv, peel]

/-- Writing a value of a map. -/
theorem wr_mapValue (hP : Ctx P f) (ht : t ∈ f.types) {g : FieldD} (hg : g ∈ t.2) (hb : L.lookup go!"b" = some (false, .cursor)) (hr : RecE f trait n)
    (h1 : g.kind ≠ .group) (h2 : g.kind ≠ .string) (h3 : g.kind ≠ .bytes) {v : V}
    (hv : v.OfField f.schema (.one g.kind (f.ref g.kind g.type) false)) (hd : v.depth ≤ n) {p : RustGen.Part} {b : List Spec.Item}
    (hp : RustGen.part f.schema (.one g.kind (f.ref g.kind g.type) false) v = some p) (he : RustGen.emitMapValue g.kind p = some b)
    (hl : L.lookup go!"v" = some (false, .ref (rv f.schema (structName f) (.one g.kind (f.ref g.kind g.type) false) v))) :
    Wr (exec P std trait local_ (match g.kind with
       | .message => .expr (.tr (.method (var go!"v") go!"encode" (args1 vb)))
       | .enum => .expr (bcall go!"encode_u32" (args1 (.as (.deref (var go!"v")) go!"u32")))
       | k => .expr (bcall (encoder k) (args1 (.deref (var go!"v")))))) L b .none := by
  have hvar : Val (eval P std trait local_ (var go!"v")) L (.ref (rv f.schema (structName f) (.one g.kind (f.ref g.kind g.type) false) v)) := eval_var hl rfl
  by_cases hm : g.kind = .message
  · obtain ⟨t', ht'⟩ := closed_type hP ht hg hm
    rw [hm] at ht' hv hp he hvar ⊢
    simp only [RustGen.emitMapValue, RustGen.encodeLUT, if_true] at he
    cases p with
    | encode cs =>
      cases he
      refine wr_expr (wr_message hb hr ht' hv hp hd hvar ?_)
      exact rv_peel _ _ _ _
    | scalar => cases he
    | slice => cases he
  · cases v with
    | scalar s =>
      simp only [V.OfField] at hv
      simp only [rv] at hvar
      rw [RustGen.part] at hp
      cases hfe : RustGen.findElem g.kind (f.ref g.kind g.type) false with
      | none => rw [hfe] at hp; cases hp
      | some ty =>
        rw [hfe] at hp
        cases hp
        have hlut : ∃ m, RustGen.encodeLUT g.kind = some m := by
          revert h1 hm
          cases g.kind <;> intro h1 hm <;> first | exact absurd rfl h1 | exact absurd rfl hm | exact ⟨_, rfl⟩
        obtain ⟨m, hlut⟩ := hlut
        rw [RustGen.emitMapValue, hlut] at he
        simp only [] at he
        have hcall : ∀ a arg, Val (eval P std trait local_ a) L arg → Passes g.kind s arg → b = [itemOf s] → Wr (exec P std trait local_ (.expr (bcall (encoder g.kind) (args1 a)))) L b .none := by
          intro a arg ha hpass hb'
          subst hb'
          exact wr_expr (wr_method hP.ready (e := vb) (is := []) (Val.wr0 (eval_vb hb)) (encoder_plain g.kind) (args_one ha) (wr_scalar (std := std) hv hpass)).tr
        have hnb : ¬ (g.kind = .string ∨ g.kind = .bytes) := by rintro (h | h) <;> contradiction
        by_cases hen : g.kind = .enum
        · rw [if_pos hen] at he
          rw [hen] at hlut hv
          cases hlut
          have hb' := emitScalar_item (k := .enum) rfl hv he
          cases s <;> first | exact absurd hv id | skip
          rename_i w
          have := hcall (.as (.deref (var go!"v")) go!"u32") (.scalar (.uint32 w)) (by rw [eval]; exact (eval_deref hvar).bind (Val.pure _ _))
            (by rw [Passes, if_neg hnb, if_pos hen]; exact ⟨w, rfl, rfl⟩) hb'
          rw [hen] at this ⊢
          exact this
        · rw [if_neg hen] at he
          have hb' := emitScalar_item hlut hv he
          have := hcall (.deref (var go!"v")) (.scalar s) (eval_deref hvar) (by rw [Passes, if_neg hnb, if_neg hen]) hb'
          have e : (match g.kind with
              | .message => Stmt.expr (.tr (.method (var go!"v") go!"encode" (args1 vb)))
              | .enum => .expr (bcall go!"encode_u32" (args1 (.as (.deref (var go!"v")) go!"u32")))
              | k => .expr (bcall (encoder k) (args1 (.deref (var go!"v"))))) = .expr (bcall (encoder g.kind) (args1 (.deref (var go!"v")))) := by
            revert hm hen
            cases g.kind <;> intro hm hen <;> first | exact absurd rfl hm | exact absurd rfl hen | rfl
          rw [e]
          exact this
    | nil => exact absurd hv (by simpa [V.OfField] using hm)
    | msg => exact absurd hv.1 hm
    | slice => exact absurd hv (by simp [V.OfField])
    | map => exact absurd hv (by simp [V.OfField])
    | nilMap => exact absurd hv (by simp [V.OfField])

theorem wr_messageField (h : Writing P f t vs ps) (hL : Own L (structOf f t vs)) (hr : RecE f trait n) (hd : depths vs ≤ n) {i : Nat} (hi : i < t.2.length) {g : FieldD} (hg : t.2[i]? = some g)
    (hs : g.isMessage = true) {calls : List Spec.Item} (hc : RustGen.emitMessage ps i = some calls) {rest : List Stmt} {js : List Spec.Item} {r : Option RV}
    (hrest : Wr (exec P std trait local_ (block rest)) L js r) :
    Wr (exec P std trait local_ (block (encMessageField g ++ rest))) L (calls ++ js) r := by
  obtain ⟨g', v, p, hg', hgm, hv, hvm, hty, hp, hpart, hsup⟩ := h.get hi
  rw [hg] at hg'
  cases hg'
  have hP := h.ctx
  have hsf := eval_sf (P := P) (std := std) (trait := trait) (local_ := local_) hP h.mem hL hg hv
  rw [RustGen.emitMessage, hp] at hc
  have hvd : v.depth ≤ n := Nat.le_trans (Gen.depth_le_depths hvm) hd
  cases hsh : g.shape with
  | many => rw [FieldD.isMessage, hsh] at hs; cases hs
  | one c =>
    have hk : g.kind = .message := by rw [FieldD.isMessage, hsh] at hs; simpa using hs
    have hfl : g.toField f = .one .message (f.ref .message g.type) c := by rw [FieldD.toField, hsh, hk]
    rw [hfl] at hty hpart hsf
    obtain ⟨t', ht'⟩ := closed_type hP h.mem hgm hk
    rw [hk] at ht'
    cases p with
    | encode cs =>
      cases hc
      rw [encMessageField, hsh]
      exact wr_cons (wr_expr (wr_message hL.b hr ht' hty hpart hvd hsf (rv_peel _ _ _ _))) hrest
    | scalar => cases hc
    | slice => cases hc
  | map kk =>
    have hfl : g.toField f = .map kk g.kind (f.ref g.kind g.type) := by rw [FieldD.toField, hsh]
    rw [hfl] at hty hpart hsup hsf
    simp only [Field.RustSupported] at hsup
    obtain ⟨rfl, hk1, hk2, hk3⟩ := hsup
    cases v with
    | map ks ws =>
      simp only [V.OfField] at hty
      have htys := (GoGen.ofElems_iff _ _ _).1 hty.2.2.2.2
      simp only [rv, rvElems_eq] at hsf
      rw [RustGen.part] at hpart
      cases hq : RustGen.elemParts f.schema (.one g.kind (f.ref g.kind g.type) false) ws with
      | none => rw [hq] at hpart; cases hpart
      | some qs =>
        obtain ⟨vk, hvk⟩ := RustGen.getKind_ok hk1
        have hkk : RustGen.getKind .string = some .String := rfl
        simp only [hq, bind, Option.bind, RustGen.emitMap, hkk, hvk] at hpart
        split at hpart
        · cases he : RustGen.emitEntries .string g.kind ks qs with
          | none => rw [he] at hpart; cases hpart
          | some es =>
            rw [he] at hpart
            cases hpart
            cases hc
            have hds : ∀ w ∈ ws, w.depth ≤ n := fun w hw => Nat.le_trans (Gen.depth_le_depths hw) (by simpa [V.depth] using hvd)
            have hhead : Wr (eval P std trait local_ (bcall go!"encode_map" (args3 (len (sf (snake g.name))) (kindOf .string) (kindOf g.kind)))) L
                [.map (BitVec.ofNat 32 qs.length) Rust.Kind.String.toU8 vk.toU8] .cursor := by
              refine (wr_method hP.ready (e := vb) (is := []) (Val.wr0 (eval_vb hL.b)) rfl (args_cons (eval_len (m := ws.length) hsf ?_)
                (args_cons (eval_kindOf hP.ready hkk) (args_one (eval_kindOf hP.ready hvk)))) ?_).tr
              · unfold method
                simp [peel]
              · rw [elemParts_length hq]
                exact wr_item (header_map _ _ _)
            rw [encMessageField, hsh]
            refine wr_cons (is := [.map (BitVec.ofNat 32 qs.length) Rust.Kind.String.toU8 vk.toU8]) (js := es ++ js) (wr_expr hhead) (wr_cons (is := es) (js := js) ?_ hrest)
            rw [exec]
            refine (eval_refVal hsf).wr ?_
            simp only [done]
            refine (wr_entries ws ks qs es hq he ?_).map (Val.pure _ _)
            intro s hs' w hw p a b h1 h2 h3
            have hown : Own ((go!"v", false, .ref (rv f.schema (structName f) (.one g.kind (f.ref g.kind g.type) false) w)) :: (go!"k", false, .ref (.scalar s)) :: L) (structOf f t vs) :=
              (hL.cons (by decide) (by decide) _ _).cons (by decide) (by decide) _ _
            have hsk := hty.2.2.2.1 s hs'
            have ha : a = [itemOf s] := emitScalar_item (k := .string) (m := .string) (fm := .ref) (t := .string) rfl hsk h2
            subst ha
            refine wr_cons ?_ (wr_block1 (wr_mapValue hP h.mem hgm hown.b hr hk1 hk2 hk3 (htys w hw) (hds w hw) h1 h3 (lookup_cons_self _ _ _)))
            refine wr_expr (wr_method hP.ready (e := vb) (is := []) (Val.wr0 (eval_vb hown.b)) (encoder_plain .string) (args_one (eval_refVal (eval_var (m := false) (v := .ref (.scalar s)) ?_ rfl)))
              (wr_scalar (std := std) hsk ?_)).tr
            · rw [lookup_cons_ne (by decide)]
              exact lookup_cons_self _ _ _
            · rw [Passes, if_pos (.inl rfl)]
              exact ⟨_, rfl, rfl⟩
        · cases hpart
    | nilMap => rw [RustGen.part] at hpart; cases hpart; all_goals (intros; contradiction)
    | scalar => exact absurd hty (by simp [V.OfField])
    | nil => exact absurd hty (by simp [V.OfField])
    | msg => exact absurd hty (by simp [V.OfField])
    | slice => exact absurd hty (by simp [V.OfField])

/-! ## The whole message -/

theorem wr_many {fn : FieldD → List Stmt} {em : Nat → Option (List Spec.Item)} {fs : List FieldD} {rest : List Stmt} {js : List Spec.Item} {r : Option RV}
    (hrest : Wr (exec P std trait local_ (block rest)) L js r) : ∀ (is : List Nat) (xs : List Spec.Item), RustGen.concatM em is = some xs → (∀ i ∈ is, i < fs.length) →
    (∀ i ∈ is, ∀ g calls, fs[i]? = some g → em i = some calls → ∀ (rest : List Stmt) (js : List Spec.Item), Wr (exec P std trait local_ (block rest)) L js r →
      Wr (exec P std trait local_ (block (fn g ++ rest))) L (calls ++ js) r) →
    Wr (exec P std trait local_ (block ((pick fs is).flatMap fn ++ rest))) L (xs ++ js) r := by
  intro is
  induction is with
  | nil => intro xs h _ _; cases h; exact hrest
  | cons i is ih =>
    intro xs h hi hs
    obtain ⟨a, as, h1, h2, rfl⟩ := concatM_cons h
    have hlt := hi i (by simp)
    have hg := List.getElem?_eq_getElem hlt
    have hp : pick fs (i :: is) = fs[i] :: pick fs is := by simp [pick, hg]
    rw [hp, List.flatMap_cons, List.append_assoc, List.append_assoc]
    exact hs i (by simp) _ a hg h1 _ _ (ih as h2 (fun j hj => hi j (by simp [hj])) fun j hj => hs j (by simp [hj]))

theorem wr_runFn {sig : Sig} {body : Stmt} {args : List RV} {L0 : Locals} {is : List Spec.Item} {v : RV} (hb : bindParams sig args = some L0)
    (h : Wr (exec P std trait local_ body) L0 is (.some v)) (L : Locals) : Wr (runFn P std trait local_ sig body args) L is v := by
  intro c c' hc
  simp only [runFn, hb, h c c' hc]

theorem mem_idx_lt {p : Field → Bool} {fs : List FieldD} {i : Nat} (h : i ∈ idx p 0 (fs.map (FieldD.toField f))) : i < fs.length ∧ ∀ g, fs[i]? = some g → p (g.toField f) = true := by
  obtain ⟨fd, h1, h2⟩ := ((GoGen.mem_idx _ _ _ _).1 h).2
  simp only [Nat.sub_zero, List.getElem?_map] at h1
  cases hg : fs[i]? with
  | none => rw [hg] at h1; cases h1
  | some g =>
    rw [hg] at h1
    cases h1
    refine ⟨(List.getElem?_eq_some_iff.1 hg).1, ?_⟩
    rintro g' h'
    cases h'
    exact h2

theorem isValue_toField (g : FieldD) : isValue (g.toField f) = g.isValue := by
  rw [FieldD.isValue, FieldD.toField]
  cases g.shape <;> rfl
theorem isSlice_toField (g : FieldD) : isSlice (g.toField f) = g.isSlice := by
  rw [FieldD.isSlice, FieldD.toField]
  cases g.shape <;> rfl
theorem isMsg_toField (g : FieldD) : isMsg (g.toField f) = g.isMessage := by
  rw [FieldD.isMessage, FieldD.toField]
  cases g.shape <;> rfl

/-- The body of `encode`, one level of calls. -/
theorem wr_encode (hP : Ctx P f) (hr : RecE f trait n) {m : Nat} (hm : f.types[m]? = some t) (hv : OfFields f.schema (t.2.map (FieldD.toField f)) vs)
    {items : List Spec.Item} (he : RustGen.Encode f.schema m (.msg vs) = some items) (hd : depths vs ≤ n) (L : Locals) :
    ∃ sig body, findImpl P go!"Encode" (camel t.1) = some (sig, body) ∧ Wr (runFn P std trait local_ sig body [.ref (structOf f t vs), .cursor]) L items (.ok .cursor) := by
  have ht : t ∈ f.types := List.mem_of_getElem? hm
  obtain ⟨sig, body, h1, h2⟩ := hP.encode t ht
  refine ⟨sig, body, h2, ?_⟩
  rw [encodeImpl] at h1
  injection h1 with _ _ hs hb
  subst hs hb
  have hfl : f.schema.fields m = t.2.map (FieldD.toField f) := by simp [FileD.schema, Schema.fields, hm]
  -- the calls of the model
  have harr : ∃ ps a b c, RustGen.parts f.schema (t.2.map (FieldD.toField f)) vs = some ps ∧ RustGen.concatM (RustGen.emitValue ps) (RustGen.calls 0 (t.2.map (FieldD.toField f))) = some a ∧
      RustGen.concatM (RustGen.emitSlice ps) (idx isSlice 0 (t.2.map (FieldD.toField f))) = some b ∧ RustGen.concatM (RustGen.emitMessage ps) (idx isMsg 0 (t.2.map (FieldD.toField f))) = some c ∧
      items = a ++ b ++ c := by
    rw [RustGen.Encode, RustGen.part, if_pos rfl, hfl] at he
    have hel : RustGen.getEncodingFields (t.2.map (FieldD.toField f)) = some ⟨idx isMsg 0 (t.2.map (FieldD.toField f)), idx isSlice 0 (t.2.map (FieldD.toField f)),
        RustGen.calls 0 (t.2.map (FieldD.toField f))⟩ := by
      refine RustGen.encLoop_eq _ 0 ?_
      intro x hx
      obtain ⟨g, hg, rfl⟩ := List.mem_map.1 hx
      exact hP.supported t ht g hg
    cases hp : RustGen.parts f.schema (t.2.map (FieldD.toField f)) vs with
    | none => rw [hp] at he; cases he
    | some ps =>
      simp only [hp, hel, bind, Option.bind, RustGen.arrange] at he
      cases ha : RustGen.concatM (RustGen.emitValue ps) (RustGen.calls 0 (t.2.map (FieldD.toField f))) with
      | none => simp only [ha] at he; cases he
      | some a =>
        cases hb : RustGen.concatM (RustGen.emitSlice ps) (idx isSlice 0 (t.2.map (FieldD.toField f))) with
        | none => simp only [ha, hb] at he; cases he
        | some b =>
          cases hc : RustGen.concatM (RustGen.emitMessage ps) (idx isMsg 0 (t.2.map (FieldD.toField f))) with
          | none => simp only [ha, hb, hc] at he; cases he
          | some c =>
            simp only [ha, hb, hc] at he
            cases he
            exact ⟨ps, a, b, c, rfl, ha, hb, hc, rfl⟩
  obtain ⟨ps, a, b, c, hp, ha, hb, hc, rfl⟩ := harr
  have hw : Writing P f t vs ps := ⟨hP, ht, hv, hp⟩
  refine wr_runFn (L0 := [(go!"self", false, .ref (structOf f t vs)), (go!"b", false, .cursor)]) rfl ?_ L
  have hL : Own [(go!"self", false, .ref (structOf f t vs)), (go!"b", false, RV.cursor)] (structOf f t vs) := ⟨rfl, rfl⟩
  have e1 := filter_idx (f := f) (p := isValue) (q := FieldD.isValue) (fun g => (isValue_toField g).symm) [] t.2
  have e2 := filter_idx (f := f) (p := isSlice) (q := FieldD.isSlice) (fun g => (isSlice_toField g).symm) [] t.2
  have e3 := filter_idx (f := f) (p := isMsg) (q := FieldD.isMessage) (fun g => (isMsg_toField g).symm) [] t.2
  simp only [List.nil_append, List.length_nil] at e1 e2 e3
  rw [← e1, ← e2, ← e3]
  have htail : Wr (exec P std trait local_ (block [.tail (okOf vb)])) [(go!"self", false, .ref (structOf f t vs)), (go!"b", false, .cursor)] [] (.some (.ok .cursor)) := by
    refine Val.wr0 ?_
    rw [exec_cons, exec]
    refine Val.bind (a := .some (.ok .cursor)) (Val.bind (eval_construct rfl (eval_vb hL.b) rfl) (Val.pure _ _)) ?_
    simp only []
    rw [if_pos (show block [] = Stmt.skip from rfl)]
    exact Val.pure _ _
  have hmsgs := wr_many (fs := t.2) (fn := encMessageField) htail (idx isMsg 0 (t.2.map (FieldD.toField f))) c hc (fun i hi => (mem_idx_lt hi).1)
    (fun i hi g calls hg hcall rest js hrest => wr_messageField hw hL hr hd (mem_idx_lt hi).1 hg (by rw [← isMsg_toField (f := f)]; exact (mem_idx_lt hi).2 g hg) hcall hrest)
  have hslices := wr_many (fs := t.2) (fn := fun g => encSlice (snake g.name) g.kind) hmsgs (idx isSlice 0 (t.2.map (FieldD.toField f))) b hb (fun i hi => (mem_idx_lt hi).1)
    (fun i hi g calls hg hcall rest js hrest => wr_slice hw hL hr hd (mem_idx_lt hi).1 hg (by rw [← isSlice_toField (f := f)]; exact (mem_idx_lt hi).2 g hg) hcall hrest)
  have hce := calls_eq [] (t.2.map (FieldD.toField f))
  simp only [List.nil_append, List.length_nil] at hce
  rw [hce] at ha
  have hchain := wr_chain (std := std) (trait := trait) (local_ := local_) hw hL (idx isValue 0 (t.2.map (FieldD.toField f)))
    (fun i hi => ⟨(mem_idx_lt hi).1, fun g hg => by rw [← isValue_toField (f := f)]; exact (mem_idx_lt hi).2 g hg⟩) vb [] a (Val.wr0 (eval_vb hL.b)) ha
  simp only [List.append_nil, List.nil_append] at hslices hchain
  by_cases hnil : pick t.2 (idx isValue 0 (t.2.map (FieldD.toField f))) = []
  · have hidx : idx isValue 0 (t.2.map (FieldD.toField f)) = [] := by
      cases hx : idx isValue 0 (t.2.map (FieldD.toField f)) with
      | nil => rfl
      | cons i is =>
        have hlt := (mem_idx_lt (f := f) (fs := t.2) (p := isValue) (i := i) (by rw [hx]; simp)).1
        rw [hx, pick, List.filterMap_cons, List.getElem?_eq_getElem hlt] at hnil
        cases hnil
    rw [hidx] at ha
    cases ha
    rw [if_pos hnil]
    simpa [List.append_assoc] using hslices
  · rw [if_neg hnil]
    have := wr_cons (wr_expr hchain) hslices
    simpa [List.append_assoc] using this

/-- Every call of `encode` in the program writes the calls of the model. -/
theorem rec_encode (hP : Ctx P f) : ∀ n, RecE f (runTrait P std n) n := by
  intro n
  induction n with
  | zero => intro m t vs items _ _ _ hd; omega
  | succ n ih =>
    intro m t vs items hm hv he hd L
    obtain ⟨sig, body, h1, h2⟩ := wr_encode (std := std) (local_ := runFn P std (runTrait P std n) fun _ _ _ => bad) hP ih hm hv he (by omega) L
    rw [runTrait, h1]
    exact h2

end

/-! ## Encoders do not fail -/

theorem writes_item (i : Spec.Item) : ∃ bs, Rust.Writes (Rust.encodeItem i) bs := by
  have u8 := fun b => Rust.write_u8_writes b
  have all : ∀ bs, Rust.Writes (Rust.write_all bs) bs := fun _ _ => rfl
  cases i with
  | nil => exact ⟨_, u8 _⟩
  | map size k v => exact ⟨_, (u8 _).bind ((u8 _).bind ((u8 _).bind (Rust.encode_u32_writes _)))⟩
  | slice size k => exact ⟨_, (u8 _).bind ((u8 _).bind (Rust.encode_u32_writes _))⟩
  | bytes v => exact ⟨_, (u8 _).bind ((Rust.encode_u32_writes _).bind (all _))⟩
  | string v => exact ⟨_, (u8 _).bind ((Rust.encode_u32_writes _).bind (all _))⟩
  | error m => exact ⟨_, (u8 _).bind ((u8 _).bind ((Rust.encode_u32_writes _).bind (all _)))⟩
  | bool v => exact ⟨_, (u8 _).bind (u8 _)⟩
  | uint8 v => exact ⟨_, (u8 _).bind (u8 _)⟩
  | uint16 v => exact ⟨_, (u8 _).bind (Rust.varintLoop_writes (by decide) _ v rfl)⟩
  | uint32 v => exact ⟨_, Rust.encode_u32_writes v⟩
  | uint64 v => exact ⟨_, (u8 _).bind (Rust.varintLoop_writes (by decide) _ v rfl)⟩
  | int32 v => exact ⟨_, (u8 _).bind (Rust.varintLoop_writes (by decide) _ (if v.slt 0 then ~~~(v <<< 1) else v <<< 1) rfl)⟩
  | int64 v => exact ⟨_, (u8 _).bind (Rust.varintLoop_writes (by decide) _ (if v.slt 0 then ~~~(v <<< 1) else v <<< 1) rfl)⟩
  | float32 v => exact ⟨_, (u8 _).bind (all _)⟩
  | float64 v => exact ⟨_, (u8 _).bind (all _)⟩

theorem encodeItems_ok (items : List Spec.Item) (c : Cursor) : ∃ c', Rust.encodeItems items c = (.ok (), c') := by
  induction items generalizing c with
  | nil => exact ⟨c, rfl⟩
  | cons i is ih =>
    obtain ⟨bs, h⟩ := writes_item i
    obtain ⟨c', h'⟩ := ih (Rust.write_all (ε := Rust.EncodingError) bs c).2
    exact ⟨c', items_cons.2 ⟨_, h c, h'⟩⟩

end RustRun
