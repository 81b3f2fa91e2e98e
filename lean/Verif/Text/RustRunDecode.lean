import Verif.Text.RustRunBase

/-!
# Running generated Rust code: the pieces of `decode`
-/

namespace RustRun

open Utils RustAst RustText
open Text hiding Tok
open Gen (PKind Scalar V Field Schema)
open Rust (Cursor Std)

/-! ## Values -/

mutual
/-- The Rust value of a value of the schema; `name` gives the struct of a message type. -/
def rv (S : Schema) (name : Nat → Ident) : Field → V → RV
  | .one _ _ _, .scalar s => .scalar s
  | .one _ m _, .msg vs => .struct (name m) (rvs S name (S.fields m) vs)
  | .many k r, .slice vs => .vec (rvElems S name (.one k r false) vs)
  | .map _ k r, .map ks vs => .map ks (rvElems S name (.one k r false) vs)
  | _, _ => .unit
def rvs (S : Schema) (name : Nat → Ident) : List Field → List V → List RV
  | f :: fs, v :: vs => rv S name f v :: rvs S name fs vs
  | _, _ => []
def rvElems (S : Schema) (name : Nat → Ident) (f : Field) : List V → List RV
  | [] => []
  | v :: vs => rv S name f v :: rvElems S name f vs
end

theorem rvElems_eq (S : Schema) (name : Nat → Ident) (f : Field) (vs : List V) : rvElems S name f vs = vs.map (rv S name f) := by
  induction vs with
  | nil => simp [rvElems]
  | cons v vs ih => simp [rvElems, ih]

/-- `Option` -/
def optRV {α : Type} (g : α → RV) : Option α → RV
  | .some a => .some (g a)
  | .none => .none

section
variable {P : List Item} {std : Std} {trait : Ident → Ident → List RV → M RV} {local_ : Sig → Stmt → List RV → M RV} {L : Locals} {α β γ : Type}

theorem Sim.mapD {m : M γ} {x : RustGen.D α} {h : α → β} {g : β → γ} (hm : Sim m L x (fun a => g (h a)) (fun _ => L)) :
    Sim m L (x >>= fun a => Pure.pure (h a)) g (fun _ => L) := by
  intro c
  obtain ⟨L', h1, h2⟩ := hm c
  rw [h1, d_bind]
  rcases hx : x c with ⟨r, c'⟩
  rw [hx] at h2
  cases r with
  | ok a => exact ⟨L', rfl, fun _ _ => h2 a rfl⟩
  | _ => exact ⟨L', rfl, by simp⟩

theorem Call.sim_call {n : Ident} {args : Expr} {vs : List RV} {x : RustGen.D α} {g : α → RV} (hP : Ready P) (hb : L.lookup go!"b" = some (false, .cursor))
    (hn : changing n = false) (ha : Val (evalArgs P std trait local_ args) L vs) (h : Call (cursorMethod std n vs) L x g) :
    Call (eval P std trait local_ (.method vb n args)) L x g := by
  intro c
  rw [eval_cursorMethod hP hb hn ha]
  exact h c

/-- `b.decode_x()?` -/
theorem dec_scalar (hP : Ready P) (hb : L.lookup go!"b" = some (false, .cursor)) {k : PKind} {m : RustGen.Method} (h : RustGen.decodeLUT k = some m) :
    Sim (eval P std trait local_ (bcall (decoder k) .anil)) L (RustGen.decScalar std m) .scalar (fun _ => L) := by
  have key : ∀ (α : Type) (x : Rust.Dec α) (g : α → Scalar), cursorMethod std (decoder k) [] = liftDec x (fun a => .scalar (g a)) → changing (decoder k) = false →
      Sim (eval P std trait local_ (bcall (decoder k) .anil)) L (RustGen.call x >>= fun a => pure (g a)) .scalar (fun _ => L) := by
    intro α x g hx hc
    refine Sim.mapD (Call.tr (Call.sim_call hP hb hc args_nil ?_))
    rw [hx]
    exact call_liftDec _ _ _
  cases k <;> cases h <;> exact key _ _ _ rfl rfl

theorem dec_assign (hP : Ready P) (hb : L.lookup go!"b" = some (false, .cursor)) {k : PKind} {r : Nat} {m : RustGen.Method} {t : RustGen.Ty} (hk : k ≠ .enum)
    (h : RustGen.decodeLUT k = some m) (ht : RustGen.findElem k r false = some t) :
    Sim (eval P std trait local_ (bcall (decoder k) .anil)) L (RustGen.assign std m t) .scalar (fun _ => L) := by
  have := dec_scalar (P := P) (std := std) (trait := trait) (local_ := local_) hP hb h
  have e : m.type = t := by
    cases k <;> cases h <;> first | (cases ht; rfl) | exact absurd rfl hk
  rw [RustGen.assign, if_pos e]
  exact this

/-- `e.ok_or(DecodingError::X)?` -/
theorem sim_okOr (hP : Ready P) {e : Expr} {n : Ident} {er : Rust.DecodingError} (hn : errors.lookup n = some er) {x : RustGen.D (Option α)} {g : α → RV}
    (h : Sim (eval P std trait local_ e) L x (optRV g) (fun _ => L)) :
    Sim (eval P std trait local_ (okOr e n)) L (x >>= fun o => RustGen.okOr o er) g (fun _ => L) := by
  intro c
  obtain ⟨L', h1, h2⟩ := h c
  rw [okOr, eval, eval_method rfl, bind_apply, bind_apply, h1, d_bind]
  rcases hx : x c with ⟨r, c'⟩
  rw [hx] at h2
  cases r with
  | ok o =>
    obtain rfl := h2 o rfl
    have ha := args_one (eval_error (P := P) (std := std) (trait := trait) (local_ := local_) (L := L') hP hn) c'
    simp only [early]
    rw [bind_ok ha]
    cases o with
    | some a => exact ⟨L', rfl, by simp⟩
    | none => exact ⟨L', rfl, by simp [RustGen.okOr, RustGen.D.throw]⟩
  | _ => exact ⟨L', rfl, by simp⟩

/-- `T::decode(b)?` -/
theorem sim_decodeOf (hb : L.lookup go!"b" = some (false, .cursor)) {t : Ident} {x : RustGen.D α} {g : α → RV} (h : ∀ L, Call (trait go!"Decode" t [.cursor]) L x g) :
    Sim (eval P std trait local_ (decodeOf t)) L x g (fun _ => L) := by
  refine Call.tr ?_
  rw [eval]
  refine (args_one (eval_vb hb)).call ?_
  rw [call2, if_pos rfl]
  exact h L

theorem sim_nested (hP : Ready P) (hb : L.lookup go!"b" = some (false, .cursor)) {t n : Ident} {er : Rust.DecodingError} (hn : errors.lookup n = some er)
    {rec : RustGen.Callee} {r : Nat} {g : List V → RV} {g' : V → RV} (hg : ∀ vs, g' (.msg vs) = g vs) (h : ∀ L, Call (trait go!"Decode" t [.cursor]) L (rec r) (optRV g)) :
    Sim (eval P std trait local_ (okOr (decodeOf t) n)) L (RustGen.nested rec r er) g' (fun _ => L) := by
  have h1 := sim_okOr hP hn (sim_decodeOf (P := P) (std := std) (local_ := local_) hb h)
  have e : RustGen.nested rec r er = (rec r >>= fun o => RustGen.okOr o er) >>= fun vs => pure (.msg vs) := by
    funext c
    simp only [RustGen.nested, d_bind]
    rcases rec r c with ⟨q, c'⟩
    cases q <;> rfl
  rw [e]
  refine Sim.mapD ?_
  simpa only [hg] using h1

/-- The answer of `T::try_from(n)`, by the model of the enum. -/
def tried : Option Scalar → RV
  | .some s => .ok (.scalar s)
  | .none => .err .noSuchConstant

/-- `T::try_from(b.decode_u32()?).ok().ok_or(DecodingError::X)?` -/
theorem sim_enum (hP : Ready P) (hb : L.lookup go!"b" = some (false, .cursor)) {S : Schema} {r : Nat} {t n : Ident} {er : Rust.DecodingError} (hn : errors.lookup n = some er)
    (h : ∀ v, tryFrom P t [.scalar (.uint32 v)] = some (tried (RustGen.try_from S r v))) :
    Sim (eval P std trait local_ (okOr (.method (.call (.path [t, go!"try_from"]) (args1 (bcall go!"decode_u32" .anil))) go!"ok" .anil) n)) L
      (do let n ← RustGen.call (Rust.decode_u32 std); RustGen.okOr (RustGen.try_from S r n) er) .scalar (fun _ => L) := by
  have h1 : Sim (eval P std trait local_ (bcall go!"decode_u32" .anil)) L (RustGen.call (Rust.decode_u32 std)) (fun v => .scalar (.uint32 v)) (fun _ => L) :=
    Call.tr (Call.sim_call hP hb rfl args_nil (call_liftDec _ _ _))
  have h2 : Sim (eval P std trait local_ (.method (.call (.path [t, go!"try_from"]) (args1 (bcall go!"decode_u32" .anil))) go!"ok" .anil)) L
      (RustGen.call (Rust.decode_u32 std)) (fun v => optRV .scalar (RustGen.try_from S r v)) (fun _ => L) := by
    rw [eval_method rfl, eval]
    refine Sim.map (g := fun v => tried (RustGen.try_from S r v)) ((args_sim h1).map fun v => ?_) fun v => ?_
    · rw [call2, if_neg (by decide), if_pos rfl, h v]
      exact Val.need rfl _
    · refine args_nil.bind ?_
      cases RustGen.try_from S r v <;> exact Val.pure _ _
  have e : (do let n ← RustGen.call (Rust.decode_u32 std); RustGen.okOr (RustGen.try_from S r n) er) =
      ((RustGen.call (Rust.decode_u32 std) >>= fun v => pure (RustGen.try_from S r v)) >>= fun o => RustGen.okOr o er) := by
    funext c
    simp only [d_bind]
    rcases RustGen.call (Rust.decode_u32 std) c with ⟨q, c'⟩
    cases q <;> rfl
  rw [e]
  exact sim_okOr hP hn (Sim.mapD h2)

/-! ## Statements -/

theorem exec_cons (s : Stmt) (ss : List Stmt) : exec P std trait local_ (block (s :: ss)) = (do
    match ← exec P std trait local_ s with
    | .none => exec P std trait local_ (block ss)
    | .some v => if block ss = .skip then pure (.some v) else bad) := by
  show exec P std trait local_ (.seq s (block ss)) = _
  rw [exec]
  rfl

/-- A statement without a value that does what `x` does. -/
def SimS (m : M (Option RV)) (L : Locals) (x : RustGen.D α) (l : α → Locals) : Prop := Sim m L x (fun _ => .none) l

theorem body_cons {s : Stmt} {ss : List Stmt} {x : RustGen.D α} {l : α → Locals} {y : α → RustGen.D β} {g : β → RV}
    (h : SimS (exec P std trait local_ s) L x l) (hs : ∀ a, Body (exec P std trait local_ (block ss)) (l a) (y a) g) :
    Body (exec P std trait local_ (block (s :: ss))) L (x >>= y) g := by
  rw [exec_cons]
  exact Sim.bindBody h hs

theorem simS_cons {s : Stmt} {ss : List Stmt} {x : RustGen.D α} {l : α → Locals} {y : α → RustGen.D β} {l' : β → Locals}
    (h : SimS (exec P std trait local_ s) L x l) (hs : ∀ a, SimS (exec P std trait local_ (block ss)) (l a) (y a) l') :
    SimS (exec P std trait local_ (block (s :: ss))) L (x >>= y) l' := by
  rw [exec_cons]
  exact Sim.bind h hs

theorem simS_one {s : Stmt} {x : RustGen.D α} {l : α → Locals} (h : SimS (exec P std trait local_ s) L x l) : SimS (exec P std trait local_ (block [s])) L x l := by
  rw [exec_cons]
  refine Sim.map h fun a => ?_
  show Val (exec P std trait local_ .skip) _ _
  rw [exec]
  exact Val.pure _ _

theorem simS_let {m : Bool} {n : Ident} {e : Expr} {x : RustGen.D α} {g : α → RV} (h : Sim (eval P std trait local_ e) L x g (fun _ => L)) :
    SimS (exec P std trait local_ (.let1 m n e)) L x (fun a => (n, m, g a) :: L) := by
  intro c
  obtain ⟨L', h1, h2⟩ := h c
  rw [exec, bind_apply, h1]
  rcases hx : x c with ⟨r, c'⟩
  rw [hx] at h2
  cases r with
  | ok a => obtain rfl := h2 a rfl; exact ⟨_, rfl, by simp⟩
  | _ => exact ⟨L', rfl, by simp⟩

theorem simS_expr {e : Expr} {x : RustGen.D α} {g : α → RV} {l : α → Locals} (h : Sim (eval P std trait local_ e) L x g l) :
    SimS (exec P std trait local_ (.expr e)) L x l := by
  rw [SimS, exec]
  exact h.map fun a => Val.pure _ _

/-- `Ok(Some(e))` -/
theorem body_okSome {e : Expr} (hOk : L.lookup go!"Ok" = none) (hSome : L.lookup go!"Some" = none) {x : RustGen.D α} {g : α → RV}
    (hne : ∀ a, ∀ er, g a ≠ .error er)
    (h : Sim (eval P std trait local_ e) L x g (fun _ => L)) :
    Body (exec P std trait local_ (block [.tail (okOf (someOf e))])) L (x >>= fun a => pure (some a)) (optRV g) := by
  have hc : ∀ n v, L.lookup n = none → Val (call1 local_ n [v]) L ((construct n [v]).getD .unit) ∨ construct n [v] = none := by
    intro n v hn
    cases hv : construct n [v] with
    | none => exact .inr rfl
    | some w =>
      left
      intro c
      rw [call1, bind_ok (s' := ⟨c, L⟩) (a := none) (by simp [get, hn])]
      simp only [hv]; rfl
  have h1 : Sim (eval P std trait local_ (someOf e)) L x (fun a => .some (g a)) (fun _ => L) := by
    rw [someOf, var, eval]
    refine (args_sim h).map fun a => ?_
    have e1 : construct go!"Some" [g a] = some (.some (g a)) := by
      have := hne a
      cases hg : g a <;> first | rfl | exact absurd hg (this _)
    rcases hc go!"Some" (g a) hSome with h | h
    · rwa [e1] at h
    · rw [e1] at h; cases h
  have h2 : Sim (eval P std trait local_ (okOf (someOf e))) L x (fun a => .ok (.some (g a))) (fun _ => L) := by
    rw [okOf, var, eval]
    refine (args_sim h1).map fun a => ?_
    rcases hc go!"Ok" (.some (g a)) hOk with h | h
    · exact h
    · cases h
  intro c
  obtain ⟨L', h3, h4⟩ := h2 c
  rw [exec_cons, exec, bind_apply, bind_apply, h3, d_bind]
  rcases hx : x c with ⟨r, c'⟩
  rw [hx] at h4
  cases r with
  | ok a =>
    obtain rfl := h4 a rfl
    refine ⟨.ok (some (.ok (.some (g a)))), L', ?_, rfl⟩
    simp only [early, pure_apply]
    have hb : block [] = Stmt.skip := rfl
    simp only [hb, if_true]; rfl
  | _ => exact ⟨_, L', rfl, rfl⟩

end

end RustRun
