import Verif.Text.GoRunDecodeStmt

/-!
# Running the generated `Decode`: blocks, loops, fields
-/

namespace GoRun

open Utils Text GoAst GoText Gen Spec
open GoGen (AnyLaw)
open GoV2 (Req)

variable {lib : Lib}

section
variable {f : FileD} {rd : GoGen.Codec} {call : Callee} {α β : Type} {R : Recv}

/-! ## Blocks and conditions -/

theorem SimM.imp {m : M Flow} {l : List (Ident × TV)} {G : GoGen.D α} {Q Q' : α → List (Ident × TV) → Prop} (h : SimM R m l G Q) (hq : ∀ a l', Q a l' → Sfx l l' → Q' a l') :
    SimM R m l G Q' := by
  intro s hs
  have h1 := h s hs
  cases hG : G s.inp with
  | ok r a =>
    rw [hG] at h1
    obtain ⟨l', h2, h3, h4⟩ := h1
    exact ⟨l', hq a l' h2 h3, h3, h4⟩
  | err e => rw [hG] at h1; exact h1
  | panic => rw [hG] at h1; exact h1
  | _ => trivial

theorem SimM.inBlock {m : M Flow} {l : List (Ident × TV)} {G : GoGen.D α} {Q Q' : α → List (Ident × TV) → Prop} (h : SimM R m l G Q)
    (hq : ∀ a l', Q a l' → Sfx l l' → Q' a (l'.drop (l'.length - l.length))) : SimM R (GoRun.inBlock m) l G Q' := by
  intro s hs
  have h1 := h s hs
  unfold GoRun.inBlock
  cases hG : G s.inp with
  | ok r a =>
    rw [hG] at h1
    obtain ⟨l', h2, h3, h4⟩ := h1
    refine ⟨_, hq a l' h2 h3, .of_eq h3.drop, ?_⟩
    rw [h4, hs]
  | err e =>
    rw [hG] at h1
    obtain ⟨s', h3, hR, h4⟩ := h1
    refine ⟨{ s' with locals := s'.locals.drop (s'.locals.length - l.length) }, .of_eq h3.drop, ⟨hR.1.drop h3, hR.2⟩, ?_⟩
    rw [h4, hs]
  | panic => rw [hG] at h1; simp only at h1 ⊢; rw [h1]
  | _ => trivial

/-- A block that leaves no new variables. -/
theorem SimM.inBlock' {m : M Flow} {l : List (Ident × TV)} {G : GoGen.D α} {Q : α → List (Ident × TV) → Prop} (h : SimM R m l G Q)
    (hq : ∀ a l', Q a l' → l'.length = l.length) : SimM R (GoRun.inBlock m) l G Q :=
  h.inBlock fun a l' h1 _ => by simpa [hq a l' h1] using h1

theorem sim_one {st : Stmt} {l : List (Ident × TV)} {G : GoGen.D α} {Q : α → List (Ident × TV) → Prop} (h : SimM R (exec (program f) rd call st) l G Q) :
    Sim R f rd call [st] l G Q := by
  intro s hs
  have h1 := h s hs
  rw [exec_block_cons]
  cases hG : G s.inp with
  | ok r a =>
    rw [hG] at h1
    obtain ⟨l', h2, h3, h4⟩ := h1
    refine ⟨l', h2, h3, ?_⟩
    rw [h4]
    exact exec_block_nil _
  | err e =>
    rw [hG] at h1
    obtain ⟨s', h3, hR, h4⟩ := h1
    refine ⟨s', h3, hR, ?_⟩
    rw [h4]
  | panic => rw [hG] at h1; simp only at h1 ⊢; rw [h1]
  | _ => trivial

theorem sim_overflow {m : M Flow} {l : List (Ident × TV)} {Q : α → List (Ident × TV) → Prop} : SimM R m l GoGen.D.overflow Q := by
  intro s _
  trivial

theorem isNil_ne_err (hl : AnyLaw ver rd) (b : Bytes) (e : GoV2.Err) : GoGen.isNil rd b ≠ .err e := by
  unfold GoGen.isNil
  cases h : rd .nil b with
  | panic => simp
  | ok p =>
    obtain ⟨r, o⟩ := p
    cases o with
    | error e => exact absurd h hl.nilErr
    | _ => simp

/-- `if !d.Nil() { … }` -/
theorem sim_notNil (hl : AnyLaw ver rd) {l : List (Ident × TV)} (hd : l.lookup go!"d" = some ⟨tDecoder, .decoder⟩) {st : Stmt} {G : GoGen.D α} {a : α}
    {Q : α → List (Ident × TV) → Prop} (ha : Q a l) (hG : SimM R (inBlock (exec (program f) rd call st)) l G Q) :
    Sim R f rd call [.if1 (.not (.call0 (.sel vd go!"Nil"))) st] l (do if ← GoGen.isNil rd then pure a else G) Q := by
  refine sim_one fun s hs => ?_
  have hnil : eval (program f) rd call (.not (.call0 (.sel vd go!"Nil"))) s = match GoGen.isNil rd s.inp with
      | .ok r b => .ok [⟨tBool, .data (.scalar (.bool !b))⟩] { s with inp := r }
      | _ => .fail .panic := by
    rw [eval]
    have := eval_dNil (lib := lib) (f := f) (call := call) hl (s := s) (by rw [hs]; exact hd)
    cases hn : GoGen.isNil rd s.inp with
    | ok r b => rw [hn] at this; rw [bind_ok (one_ok this)]; rfl
    | _ => rw [hn] at this; rw [bind_fail]; rw [one, bind_fail this]
  rw [dbind_apply, exec]
  have hne := (isNil_ne_err hl s.inp)
  cases hn : GoGen.isNil rd s.inp with
  | ok r b =>
    rw [hn] at hnil
    rw [bind_ok (isTrue_ok hnil)]
    cases b with
    | true =>
      exact ⟨l, ha, .refl _, by simp [pure_apply, hs]⟩
    | false =>
      have := hG { s with inp := r } hs
      simpa using this
  | panic => rw [hn] at hnil; rw [bind_fail]; rw [isTrue, bind_fail]; rw [one, bind_fail hnil]
  | err e => exact absurd hn (hne e)
  | _ => trivial

/-! ## Loops -/

theorem loop_end {cond : M Bool} {body : M Flow} {post : M _root_.Unit} {n : Nat} {l : List (Ident × TV)} {a : α} {Q : α → List (Ident × TV) → Prop}
    (hc : ∀ s, s.locals = l → cond s = .ok false s) (ha : Q a l) : SimM R (loop cond body post (n + 1)) l (pure a) Q := by
  intro s hs
  refine ⟨l, ha, .refl _, ?_⟩
  subst hs
  rw [loop, bind_ok (hc s rfl)]
  rfl

theorem loop_step {cond : M Bool} {body : M Flow} {post : M _root_.Unit} {n : Nat} {l : List (Ident × TV)} {G : GoGen.D α} {K : α → GoGen.D β}
    {Q : β → List (Ident × TV) → Prop} {I : α → List (Ident × TV) → Prop} (hc : ∀ s, s.locals = l → cond s = .ok true s) (hb : SimM R body l G I)
    (hk : ∀ a l', I a l' → ∃ l'', (∀ s, s.locals = l' → post s = .ok () { s with locals := l'' }) ∧ Sfx l' l'' ∧ SimM R (loop cond body post n) l'' (K a) Q) :
    SimM R (loop cond body post (n + 1)) l (G >>= K) Q := by
  intro s hs
  have h1 := hb s hs
  rw [loop, bind_ok (hc s hs), if_pos rfl, dbind_apply]
  cases hG : G s.inp with
  | ok r a =>
    rw [hG] at h1
    obtain ⟨l', h2, h3, h4⟩ := h1
    obtain ⟨l'', hp, hx, hn⟩ := hk a l' h2
    rw [bind_ok h4]
    simp only
    rw [bind_ok (hp ⟨l', s.out, r⟩ rfl)]
    have h5 := hn ⟨l'', s.out, r⟩ rfl
    cases hK : K a r with
    | ok r' b =>
      rw [hK] at h5
      obtain ⟨m, h6, h7, h8⟩ := h5
      exact ⟨m, h6, (h3.trans hx).trans h7, h8⟩
    | err e =>
      rw [hK] at h5
      obtain ⟨s', h7, hR, h8⟩ := h5
      exact ⟨s', (h3.trans hx).trans h7, hR, h8⟩
    | panic => rw [hK] at h5; exact h5
    | _ => trivial
  | err e =>
    rw [hG] at h1
    obtain ⟨s', h3, hR, h4⟩ := h1
    refine ⟨s', h3, hR, ?_⟩
    rw [bind_ok h4]
    rfl
  | panic => rw [hG] at h1; simp only at h1 ⊢; rw [bind_fail h1]
  | _ => trivial

/-- `i < size` -/
theorem eval_less {s : St} {e1 e2 : Expr} {j n : BitVec 32} (h1 : eval (program f) rd call e1 s = .ok [⟨tUint32, .data (.scalar (.uint32 j))⟩] s)
    (h2 : eval (program f) rd call e2 s = .ok [⟨tUint32, .data (.scalar (.uint32 n))⟩] s) : isTrue (eval (program f) rd call (.lt e1 e2)) s = .ok (decide (j < n)) s := by
  refine isTrue_ok (t := tBool) ?_
  rw [eval, bind_ok (one_ok h1), bind_ok (one_ok h2)]
  rfl

theorem increment_eq {s : St} {n : Ident} {j : BitVec 32} (h : s.locals.lookup n = some ⟨tUint32, .data (.scalar (.uint32 j))⟩) :
    increment n s = .ok () { s with locals := setLocal n ⟨tUint32, .data (.scalar (.uint32 (j + 1)))⟩ s.locals } := by
  rw [increment, bind_apply]
  simp only [GoRun.get, h, set]

/-! ## Messages -/

/-- `e = NewT(); err = e.decode(d); if err != nil { return err }` -/
theorem sim_fresh (h : f.Plain) {rec : GoGen.Callees} (hrec : DecCallees f call rec) {m : Nat} {t : Bytes × List FieldD} (ht : f.types[m]? = some t)
    {root : Ident} {e : Expr} {upd : V → List (Ident × TV)} (hc : Cell f rd call root e (.ptr (.name (camel t.1))) upd) (h1 : root ≠ go!"d") (h2 : root ≠ go!"err")
    {w : V} (hE : DecEnv (upd w)) (hN : (upd w).lookup (go!"New" ++ camel t.1) = none)
    (hR : ∀ v, V.OfField f.schema (.one .message m false) v → R.In (upd v)) :
    Sim R f rd call [.assign e (.call0 (.var (go!"New" ++ camel t.1))), .assign verr (.call1 (.sel e go!"decode") vd), check] (upd w) (GoGen.decInto rec m .nil)
      (fun v l' => l' = upd v) := by
  have hG : GoGen.decInto rec m .nil = (rec.new m >>= fun fs => do let fs ← rec.decode m fs; pure (.msg fs)) := rfl
  rw [hG]
  rcases hrec.new m t ht with ho | ⟨fs, hp, hfs, hnew⟩
  · rw [ho]; exact sim_overflow
  · rw [hp]
    refine Sim.pre (a := [_]) (l' := upd (.msg fs)) (fun s hs => exec_new h ht hnew hc hN s hs) (.of_eq (hc.sig _ _)) ?_
    exact (tries_decode h hrec ht hc h1 h2 hfs (hc.env h1 h2 hE _) hR).check h

/-- `if e == nil { e = NewT() }; err = e.decode(d); if err != nil { return err }` -/
theorem sim_into (h : f.Plain) {rec : GoGen.Callees} (hrec : DecCallees f call rec) {m : Nat} {t : Bytes × List FieldD} (ht : f.types[m]? = some t)
    {root : Ident} {e : Expr} {upd : V → List (Ident × TV)} (hc : Cell f rd call root e (.ptr (.name (camel t.1))) upd) (h1 : root ≠ go!"d") (h2 : root ≠ go!"err")
    {w : V} (hw : w.OfField f.schema (.one .message m false)) (hE : DecEnv (upd w)) (hN : (upd w).lookup (go!"New" ++ camel t.1) = none)
    (hR : ∀ v, V.OfField f.schema (.one .message m false) v → R.In (upd v)) :
    Sim R f rd call ([.if1 (.eq e vnil) (block [.assign e (.call0 (.var (go!"New" ++ camel t.1)))]), .assign verr (.call1 (.sel e go!"decode") vd)] ++ [check]) (upd w)
      (GoGen.decInto rec m w) (fun v l' => l' = upd v) := by
  have hG : GoGen.decInto rec m w = (GoGen.current rec m w >>= fun fs => do let fs ← rec.decode m fs; pure (.msg fs)) := rfl
  rw [hG]
  cases w with
  | msg fs =>
    have hcur : GoGen.current rec m (.msg fs) = pure fs := rfl
    rw [hcur]
    refine Sim.pre (a := [_]) (l' := upd (.msg fs)) ?_ (.refl _) ?_
    · intro s hs
      rw [exec_block_cons, exec, bind_ok (isTrue_ok (eval_isNil (l := upd (.msg fs)) hE.base h hs (hc.reads _ s hs) (b := false) rfl))]
      simp only [Bool.false_eq_true, if_false, pure_apply, hs.symm]
      exact exec_block_nil _
    · exact (tries_decode h hrec ht hc h1 h2 (by simpa [V.OfField] using hw) hE hR).check h
  | nil =>
    have hcur : GoGen.current rec m .nil = rec.new m := rfl
    rw [hcur]
    rcases hrec.new m t ht with ho | ⟨fs, hp, hfs, hnew⟩
    · rw [ho]; exact sim_overflow
    · rw [hp]
      refine Sim.pre (a := [_]) (l' := upd (.msg fs)) ?_ (.of_eq (hc.sig _ _)) ?_
      · intro s hs
        rw [exec_block_cons, exec, bind_ok (isTrue_ok (eval_isNil (l := upd .nil) hE.base h hs (hc.reads _ s hs) (b := true) rfl)), if_pos rfl]
        have := exec_new h ht hnew hc hN s hs
        rw [inBlock_ok this (by
          have := congrArg List.length (hc.sig .nil (.msg fs))
          simp only [List.length_map] at this
          rw [hs]; exact this)]
        exact exec_block_nil _
      · exact (tries_decode h hrec ht hc h1 h2 hfs (hc.env h1 h2 hE _) hR).check h
  | scalar y => simp only [V.OfField] at hw; cases y <;> exact hw.elim
  | _ => simp [V.OfField] at hw

end

end GoRun
