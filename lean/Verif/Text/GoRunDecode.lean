import Verif.Text.GoRunEncodeMsg
import Verif.Gen.GoTyped

/-!
# Running the generated `Decode`: statements

`Sim st l G Q`: started with local variables `l`, the statements `st` do what the model `G` (of `Gen/GoGen.lean`) does.
-/

namespace GoRun

open Utils Text GoAst GoText Gen Spec
open GoGen (AnyLaw)
open GoV2 (Req)

variable {lib : Lib}

/-! ## Local variables -/

/-- Name and type of a variable, and whether it holds data. -/
def sig (p : Ident × TV) : Ident × Ty × Bool := (p.1, p.2.ty, match p.2.val with
  | .data _ => true
  | _ => false)

/-- The variables `l` are still there, with new values and perhaps below other variables, none of them named `x`. -/
def Sfx (l l' : List (Ident × TV)) : Prop := ∃ top, l'.map sig = top ++ l.map sig ∧ ∀ p ∈ top, p.1 ≠ go!"x"

theorem Sfx.of_eq {l l' : List (Ident × TV)} (h : l'.map sig = l.map sig) : Sfx l l' := ⟨[], by simpa using h, by simp⟩
theorem Sfx.refl (l : List (Ident × TV)) : Sfx l l := .of_eq rfl

theorem Sfx.trans {a b c : List (Ident × TV)} (h : Sfx a b) (h' : Sfx b c) : Sfx a c := by
  obtain ⟨t1, h1, h2⟩ := h
  obtain ⟨t2, h3, h4⟩ := h'
  refine ⟨t2 ++ t1, by rw [h3, h1, List.append_assoc], ?_⟩
  intro p hp
  rcases List.mem_append.mp hp with hp | hp
  · exact h4 p hp
  · exact h2 p hp

theorem Sfx.cons {p : Ident × TV} (hp : p.1 ≠ go!"x") (l : List (Ident × TV)) : Sfx l (p :: l) := ⟨[sig p], rfl, by simpa [sig] using hp⟩

theorem Sfx.drop {l l' : List (Ident × TV)} (h : Sfx l l') : (l'.drop (l'.length - l.length)).map sig = l.map sig := by
  obtain ⟨top, h1, _⟩ := h
  have hl := congrArg List.length h1
  simp only [List.length_map, List.length_append] at hl
  rw [List.map_drop, h1, List.drop_left' (by omega)]

theorem sig_setLocal {n : Ident} {v w : TV} : ∀ {l : List (Ident × TV)}, l.lookup n = some w → sig (n, v) = sig (n, w) → (setLocal n v l).map sig = l.map sig
  | [], h, _ => by simp at h
  | (m, u) :: l, h, hs => by
    rw [setLocal]
    by_cases hm : n = m
    · subst hm
      rw [lookup_cons_self] at h
      cases h
      rw [if_pos rfl, List.map_cons, List.map_cons, hs]
    · rw [lookup_cons_ne hm] at h
      rw [if_neg hm, List.map_cons, List.map_cons, sig_setLocal h hs]

theorem lookup_sig {n : Ident} : ∀ {l l' : List (Ident × TV)}, l'.map sig = l.map sig → (l'.lookup n).map (fun v => sig (n, v)) = (l.lookup n).map fun v => sig (n, v)
  | [], [], _ => rfl
  | [], _ :: _, h => by simp at h
  | _ :: _, [], h => by simp at h
  | (m, u) :: l, (m', u') :: l', h => by
    rw [List.map_cons, List.map_cons, List.cons.injEq] at h
    have hm : m' = m := congrArg (·.1) h.1
    subst hm
    by_cases hn : n = m'
    · subst hn
      rw [lookup_cons_self, lookup_cons_self]
      simp [h.1]
    · rw [lookup_cons_ne hn, lookup_cons_ne hn, lookup_sig h.2]

theorem none_sig {l l' : List (Ident × TV)} (h : l'.map sig = l.map sig) {n : Ident} (hn : l.lookup n = none) : l'.lookup n = none := by
  have := lookup_sig (n := n) h
  rw [hn] at this
  cases hl : l'.lookup n with
  | none => rfl
  | some v => rw [hl] at this; cases this

theorem base_sig {l l' : List (Ident × TV)} (h : l'.map sig = l.map sig) (hb : Base l) : Base l' := fun n hn => none_sig h (hb n hn)

theorem env_sig {f : FileD} {l l' : List (Ident × TV)} (h : l'.map sig = l.map sig) (he : Env f l) : Env f l' := by
  intro n hn
  have := lookup_sig (n := n) h
  rw [he n hn] at this
  cases hl : l'.lookup n with
  | none => rfl
  | some v => rw [hl] at this; cases this

theorem lookup_data {l l' : List (Ident × TV)} (h : l'.map sig = l.map sig) {n : Ident} {t : Ty} {x : V} (hl : l.lookup n = some ⟨t, .data x⟩) :
    ∃ y, l'.lookup n = some ⟨t, .data y⟩ := by
  have := lookup_sig (n := n) h
  rw [hl] at this
  cases hl' : l'.lookup n with
  | none => rw [hl'] at this; cases this
  | some v =>
    rw [hl'] at this
    obtain ⟨ty, val⟩ := v
    simp only [Option.map_some, Option.some.injEq, sig, Prod.mk.injEq, true_and] at this
    obtain ⟨rfl, h2⟩ := this
    cases val <;> simp at h2
    exact ⟨_, rfl⟩

theorem setLocal_setLocal (n : Ident) (v w : TV) : ∀ l : List (Ident × TV), setLocal n v (setLocal n w l) = setLocal n v l
  | [] => rfl
  | (m, u) :: l => by
    by_cases hm : n = m
    · simp [setLocal, hm]
    · simp [setLocal, hm, setLocal_setLocal n v w l]

def noErr : TV := ⟨tError, .err none⟩
def errTV (e : GoV2.Err) : TV := ⟨tError, .err (some (.lib e))⟩

/-- Local variables of decoding code. -/
structure DecEnv [Lib] (l : List (Ident × TV)) : Prop where
  base : Base l
  d : l.lookup go!"d" = some ⟨tDecoder, .decoder⟩
  err : l.lookup go!"err" = some noErr

section
variable {f : FileD} {rd : GoGen.Codec} {call : Callee} {α β : Type}

/-- What is kept up about the receiver `x` also when decoding fails: its type and what holds of its value. -/
structure Recv where
  ty : Ty
  ok : V → Prop

/-- The receiver is what `R` says. -/
def Recv.In (R : Recv) (l : List (Ident × TV)) : Prop := ∃ w, l.lookup go!"x" = some ⟨R.ty, .data w⟩ ∧ R.ok w

theorem Recv.In.of_eq {R : Recv} {l l' : List (Ident × TV)} (h : R.In l) (he : l'.lookup go!"x" = l.lookup go!"x") : R.In l' := by
  obtain ⟨w, h1, h2⟩ := h
  exact ⟨w, he.trans h1, h2⟩

theorem Recv.In.set {R : Recv} {l : List (Ident × TV)} (h : R.In l) {n : Ident} (hn : n ≠ go!"x") (v : TV) : R.In (setLocal n v l) :=
  h.of_eq (lookup_setLocal_ne _ hn.symm _)

theorem Recv.In.cons {R : Recv} {l : List (Ident × TV)} (h : R.In l) {p : Ident × TV} (hn : p.1 ≠ go!"x") : R.In (p :: l) :=
  h.of_eq (lookup_cons_ne hn.symm _ _)

/-- Variables above do not hide `x`. -/
theorem lookup_drop_x {k : Nat} : ∀ {l : List (Ident × TV)}, (∀ p ∈ (l.take k).map sig, p.1 ≠ go!"x") → (l.drop k).lookup go!"x" = l.lookup go!"x" := by
  induction k with
  | zero => intro l _; rfl
  | succ k ih =>
    intro l h
    cases l with
    | nil => rfl
    | cons p l =>
      obtain ⟨n, v⟩ := p
      have hn : n ≠ go!"x" := h (sig (n, v)) (by simp)
      rw [List.drop_succ_cons, lookup_cons_ne hn.symm]
      exact ih fun q hq => h q (by rw [List.take_succ_cons, List.map_cons]; exact List.mem_cons_of_mem _ hq)

theorem Recv.In.drop {R : Recv} {l l' : List (Ident × TV)} (h : R.In l') (hx : Sfx l l') : R.In (l'.drop (l'.length - l.length)) := by
  refine h.of_eq (lookup_drop_x ?_)
  obtain ⟨top, h1, h2⟩ := hx
  have hl := congrArg List.length h1
  simp only [List.length_map, List.length_append] at hl
  intro p hp
  rw [List.map_take, h1, List.take_left' (by omega)] at hp
  exact h2 p hp

variable {R : Recv}

/-- The code does what the model does; after an error it returns it, and the receiver is what `R` says. -/
def SimM (R : Recv) (m : M Flow) (l : List (Ident × TV)) (G : GoGen.D α) (Q : α → List (Ident × TV) → Prop) : Prop :=
  ∀ s, s.locals = l → match G s.inp with
    | .ok r a => ∃ l', Q a l' ∧ Sfx l l' ∧ m s = .ok .next ⟨l', s.out, r⟩
    | .err e => ∃ s', Sfx l s'.locals ∧ (R.In s'.locals ∧ s'.out = s.out) ∧ m s = .ok (.ret [errTV e]) s'
    | .panic => m s = .fail .panic
    | _ => True

/-- The statements do what the model does. -/
abbrev Sim [Lib] (R : Recv) (f : FileD) (rd : GoGen.Codec) (call : Callee) (st : List Stmt) (l : List (Ident × TV)) (G : GoGen.D α) (Q : α → List (Ident × TV) → Prop) : Prop :=
  SimM R (exec (program f) rd call (block st)) l G Q

/-- The same, but an error is in variable `err` at the end. -/
def Tries [Lib] (R : Recv) (f : FileD) (rd : GoGen.Codec) (call : Callee) (st : List Stmt) (l : List (Ident × TV)) (G : GoGen.D α) (Q : α → List (Ident × TV) → Prop) : Prop :=
  ∀ s, s.locals = l → match G s.inp with
    | .ok r a => ∃ l', Q a l' ∧ Sfx l l' ∧ DecEnv l' ∧ exec (program f) rd call (block st) s = .ok .next ⟨l', s.out, r⟩
    | .err e => ∃ s', Sfx l s'.locals ∧ (R.In s'.locals ∧ s'.out = s.out) ∧ Base s'.locals ∧ s'.locals.lookup go!"err" = some (errTV e) ∧ exec (program f) rd call (block st) s = .ok .next s'
    | .panic => exec (program f) rd call (block st) s = .fail .panic
    | _ => True

theorem dbind_apply (x : GoGen.D α) (k : α → GoGen.D β) (b : Bytes) : (x >>= k) b = match x b with
    | .ok r a => k a r
    | .err e => .err e
    | .panic => .panic
    | .bad => .bad
    | .overflow => .overflow := rfl

theorem sim_nil {l : List (Ident × TV)} {a : α} {Q : α → List (Ident × TV) → Prop} (h : Q a l) : Sim R f rd call [] l (pure a) Q := by
  rintro s rfl
  exact ⟨s.locals, h, .refl _, exec_block_nil s⟩

theorem sim_bad {l : List (Ident × TV)} {st : List Stmt} {Q : α → List (Ident × TV) → Prop} : Sim R f rd call st l GoGen.D.bad Q := by
  intro s _
  trivial

theorem Sim.seq {a b : List Stmt} {l : List (Ident × TV)} {G : GoGen.D α} {H : α → GoGen.D β} {Q : α → List (Ident × TV) → Prop} {Q' : β → List (Ident × TV) → Prop}
    (ha : Sim R f rd call a l G Q) (hb : ∀ x l', Q x l' → Sim R f rd call b l' (H x) Q') : Sim R f rd call (a ++ b) l (G >>= H) Q' := by
  intro s hs
  have h1 := ha s hs
  rw [dbind_apply]
  cases hG : G s.inp with
  | ok r x =>
    rw [hG] at h1
    obtain ⟨l', hq, hx, he⟩ := h1
    have h2 := hb x l' hq ⟨l', s.out, r⟩ rfl
    simp only [exec_block_append, he] at h2 ⊢
    cases hH : H x r with
    | ok r' y =>
      rw [hH] at h2
      obtain ⟨l'', hq', hx', he'⟩ := h2
      exact ⟨l'', hq', hx.trans hx', he'⟩
    | err e =>
      rw [hH] at h2
      obtain ⟨s', hx', hR, he'⟩ := h2
      exact ⟨s', hx.trans hx', hR, he'⟩
    | panic => rw [hH] at h2; exact h2
    | _ => trivial
  | err e =>
    rw [hG] at h1
    obtain ⟨s', hx, hR, he⟩ := h1
    exact ⟨s', hx, hR, by rw [exec_block_append, he]⟩
  | panic => rw [hG] at h1; simp only at h1 ⊢; rw [exec_block_append, h1]
  | _ => trivial

/-- First something that changes the variables only. -/
theorem Sim.pre {a b : List Stmt} {l l' : List (Ident × TV)} {G : GoGen.D α} {Q : α → List (Ident × TV) → Prop}
    (ha : ∀ s, s.locals = l → exec (program f) rd call (block a) s = .ok .next { s with locals := l' }) (hx : Sfx l l') (hb : Sim R f rd call b l' G Q) :
    Sim R f rd call (a ++ b) l G Q := by
  intro s hs
  have h2 := hb { s with locals := l' } rfl
  rw [exec_block_append, ha s hs]
  simp only at h2 ⊢
  cases hG : G s.inp with
  | ok r x =>
    rw [hG] at h2
    obtain ⟨l'', hq', hx', he'⟩ := h2
    exact ⟨l'', hq', hx.trans hx', he'⟩
  | err e =>
    rw [hG] at h2
    obtain ⟨s', hx', hR, he'⟩ := h2
    exact ⟨s', hx.trans hx', hR, he'⟩
  | panic => rw [hG] at h2; exact h2
  | _ => trivial

theorem Tries.pre {a b : List Stmt} {l l' : List (Ident × TV)} {G : GoGen.D α} {Q : α → List (Ident × TV) → Prop}
    (ha : ∀ s, s.locals = l → exec (program f) rd call (block a) s = .ok .next { s with locals := l' }) (hx : Sfx l l') (hb : Tries R f rd call b l' G Q) :
    Tries R f rd call (a ++ b) l G Q := by
  intro s hs
  have h2 := hb { s with locals := l' } rfl
  rw [exec_block_append, ha s hs]
  simp only at h2 ⊢
  cases hG : G s.inp with
  | ok r x =>
    rw [hG] at h2
    obtain ⟨l'', hq', hx', he'⟩ := h2
    exact ⟨l'', hq', hx.trans hx', he'⟩
  | err e =>
    rw [hG] at h2
    obtain ⟨s', hx', hR, he'⟩ := h2
    exact ⟨s', hx.trans hx', hR, he'⟩
  | panic => rw [hG] at h2; exact h2
  | _ => trivial

/-- The model goes on with something that reads nothing. -/
theorem Tries.next {st : List Stmt} {l : List (Ident × TV)} {G : GoGen.D α} {H : α → GoGen.D β} {Q : α → List (Ident × TV) → Prop} {Q' : β → List (Ident × TV) → Prop}
    (h : Tries R f rd call st l G Q) (hn : ∀ a l', Q a l' → H a = GoGen.D.bad ∨ ∃ c, H a = pure c ∧ Q' c l') : Tries R f rd call st l (G >>= H) Q' := by
  intro s hs
  have h1 := h s hs
  rw [dbind_apply]
  cases hG : G s.inp with
  | ok r x =>
    rw [hG] at h1
    obtain ⟨l', hq, hx, he⟩ := h1
    rcases hn x l' hq with hb | ⟨c, hc, hq'⟩
    · simp only [hb]; trivial
    · simp only [hc]; exact ⟨l', hq', hx, he⟩
  | err e => rw [hG] at h1; exact h1
  | panic => rw [hG] at h1; exact h1
  | _ => trivial

/-! ## `if err != nil { return err }` -/

theorem eval_ne_err (h : f.Plain) {s : St} (he : Base s.locals) {u : Option GoErr} (hl : s.locals.lookup go!"err" = some ⟨tError, .err u⟩) :
    eval (program f) rd call (.ne verr vnil) s = .ok [⟨tBool, .data (.scalar (.bool (!decide (u = none))))⟩] s := by
  rw [eval, verr, bind_ok (one_ok (eval_local hl)), bind_ok (one_ok (nil_env he h rfl))]
  rfl

theorem exec_check_ok (h : f.Plain) {s : St} (he : DecEnv s.locals) : exec (program f) rd call check s = .ok .next s := by
  rw [check, exec, bind_ok (isTrue_ok (eval_ne_err h he.base he.err))]
  rfl

theorem exec_check_err (h : f.Plain) {s : St} (he : Base s.locals) {e : GoV2.Err} (hl : s.locals.lookup go!"err" = some (errTV e)) :
    exec (program f) rd call check s = .ok (.ret [errTV e]) s := by
  rw [check, exec, bind_ok (isTrue_ok (eval_ne_err h he hl))]
  simp only [reduceCtorEq, decide_false, Bool.not_false, if_true]
  refine inBlock_ok ?_ rfl
  rw [exec_block_cons, exec, verr, bind_ok (eval_local hl)]
  rfl

theorem Tries.check (h : f.Plain) {st : List Stmt} {l : List (Ident × TV)} {G : GoGen.D α} {Q : α → List (Ident × TV) → Prop} (ht : Tries R f rd call st l G Q) :
    Sim R f rd call (st ++ [check]) l G Q := by
  intro s hs
  have h1 := ht s hs
  rw [exec_block_append]
  cases hG : G s.inp with
  | ok r x =>
    rw [hG] at h1
    obtain ⟨l', hq, hx, hd, he⟩ := h1
    refine ⟨l', hq, hx, ?_⟩
    rw [he]
    simp only
    rw [exec_block_cons, exec_check_ok h hd]
    exact exec_block_nil _
  | err e =>
    rw [hG] at h1
    obtain ⟨s', hx, hR, henv, hl, he⟩ := h1
    refine ⟨s', hx, hR, ?_⟩
    rw [he]
    simp only
    rw [exec_block_cons, exec_check_err h henv hl]
  | panic => rw [hG] at h1; simp only at h1 ⊢; rw [h1]
  | _ => trivial

/-! ## Calls of the decoder -/

theorem apply_decoder (m : Ident) (args : List TV) (s : St) : apply (program f) rd call (.method ⟨tDecoder, .decoder⟩ m) args s = match decoderCall rd m args s with
    | .ok r s => .ok (r, none) s
    | .fail e => .fail e := by
  simp only [apply, bind_apply]
  cases decoderCall rd m args s <;> rfl

theorem eval_d0 {s : St} (hd : s.locals.lookup go!"d" = some ⟨tDecoder, .decoder⟩) (m : Ident) :
    eval (program f) rd call (.call0 (.sel vd m)) s = decoderCall rd m [] s := by
  rw [vd, eval, bind_ok (target_method (isPackage_false (by simp)) (eval_local hd)), bind_apply, apply_decoder]
  cases decoderCall rd m [] s with
  | ok r s' => simp only; rw [bind_ok (storeReceiver_none _ _)]; rfl
  | fail e => rfl

theorem eval_d1 {s : St} (hd : s.locals.lookup go!"d" = some ⟨tDecoder, .decoder⟩) (m : Ident) {a : Expr} {v : TV} (ha : eval (program f) rd call a s = .ok [v] s) :
    eval (program f) rd call (.call1 (.sel vd m) a) s = decoderCall rd m [v] s := by
  rw [vd, eval, bind_ok (target_method (isPackage_false (by simp)) (eval_local hd)), bind_ok (one_ok ha), bind_apply, apply_decoder]
  cases decoderCall rd m [v] s with
  | ok r s' => simp only; rw [bind_ok (storeReceiver_none _ _)]; rfl
  | fail e => rfl

theorem eval_d2 {s : St} (hd : s.locals.lookup go!"d" = some ⟨tDecoder, .decoder⟩) (m : Ident) {a b : Expr} {v w : TV} (ha : eval (program f) rd call a s = .ok [v] s)
    (hb : eval (program f) rd call b s = .ok [w] s) : eval (program f) rd call (.call2 (.sel vd m) a b) s = decoderCall rd m [v, w] s := by
  rw [vd, eval, bind_ok (target_method (isPackage_false (by simp)) (eval_local hd)), bind_ok (one_ok ha), bind_ok (one_ok hb), bind_apply, apply_decoder]
  cases decoderCall rd m [v, w] s with
  | ok r s' => simp only; rw [bind_ok (storeReceiver_none _ _)]; rfl
  | fail e => rfl

/-- `d.Nil()` -/
theorem eval_dNil (hl : AnyLaw ver rd) {s : St} (hd : s.locals.lookup go!"d" = some ⟨tDecoder, .decoder⟩) :
    eval (program f) rd call (.call0 (.sel vd go!"Nil")) s = match GoGen.isNil rd s.inp with
      | .ok r b => .ok [⟨tBool, .data (.scalar (.bool b))⟩] { s with inp := r }
      | _ => .fail .panic := by
  rw [eval_d0 hd]
  unfold decoderCall GoGen.isNil
  rw [if_pos rfl]
  cases h : rd .nil s.inp with
  | panic => rfl
  | ok p =>
    obtain ⟨r, o⟩ := p
    cases o with
    | value i => rfl
    | notNil => rfl
    | error e => exact absurd h hl.nilErr

/-! ## Places -/

/-- An expression that can be assigned to: with local variables `upd w` it has the value `w`, and storing `w'` leads to `upd w'`.
`root` is the variable at its left. -/
structure Cell [Lib] (f : FileD) (rd : GoGen.Codec) (call : Callee) (root : Ident) (e : Expr) (t : Ty) (upd : V → List (Ident × TV)) : Prop where
  notPackage : e ≠ .var go!"polyglot"
  reads : ∀ w (s : St), s.locals = upd w → eval (program f) rd call e s = .ok [⟨t, .data w⟩] s
  puts : ∀ w v w' (s : St), s.locals = upd w → assignTo (program f) t v = some (.data w') → store (program f) rd call e v s = .ok () { s with locals := upd w' }
  sig : ∀ w w', (upd w').map sig = (upd w).map sig
  other : ∀ w w' n, n ≠ root → (upd w').lookup n = (upd w).lookup n

theorem Cell.stores {root : Ident} {e : Expr} {t : Ty} {upd : V → List (Ident × TV)} (hc : Cell f rd call root e t upd) (w w' : V) (s : St) (hs : s.locals = upd w) :
    store (program f) rd call e ⟨t, .data w'⟩ s = .ok () { s with locals := upd w' } := hc.puts w _ w' s hs (assignTo_same _ _)

theorem Cell.env {root : Ident} {e : Expr} {t : Ty} {upd : V → List (Ident × TV)} (hc : Cell f rd call root e t upd) (h1 : root ≠ go!"d") (h2 : root ≠ go!"err")
    {w : V} (h : DecEnv (upd w)) (w' : V) : DecEnv (upd w') where
  base := base_sig (hc.sig w w') h.base
  d := by rw [hc.other w w' _ h1.symm]; exact h.d
  err := by rw [hc.other w w' _ h2.symm]; exact h.err

theorem cell_var {l : List (Ident × TV)} {n : Ident} {t : Ty} {x : V} (hn : n ≠ go!"polyglot") (h : l.lookup n = some ⟨t, .data x⟩) :
    Cell f rd call n (.var n) t (fun w => setLocal n ⟨t, .data w⟩ l) where
  notPackage := by simpa using hn
  reads := fun w s hs => eval_local (by rw [hs]; exact lookup_setLocal_self _ h)
  puts := by
    intro w v w' s hs ha
    have hl : s.locals.lookup n = some ⟨t, .data w⟩ := by rw [hs]; exact lookup_setLocal_self _ h
    rw [store_var, bind_apply]
    simp only [GoRun.get, hl, ha, bind_apply, need_some, set]
    rw [hs, setLocal_setLocal]
  sig := by
    intro w w'
    exact (sig_setLocal (v := ⟨t, .data w'⟩) h rfl).trans (sig_setLocal (v := ⟨t, .data w⟩) h rfl).symm
  other := by
    intro w w' m hm
    rw [lookup_setLocal_ne _ hm, lookup_setLocal_ne _ hm]

theorem cell_field (h : f.Plain) {t : Bytes × List FieldD} (ht : t ∈ f.types) {l : List (Ident × TV)} {vs : List V}
    (hx : l.lookup go!"x" = some ⟨.ptr (.name (camel t.1)), .data (.msg vs)⟩) {i : Nat} {g : FieldD} (hg : t.2[i]? = some g) (hi : i < vs.length) :
    Cell f rd call go!"x" (xf (camel g.name)) (fieldTy t.1 g) (fun w => setLocal go!"x" ⟨.ptr (.name (camel t.1)), .data (.msg (vs.set i w))⟩ l) := by
  have hfi := fieldIndex_eq (name := fun g : FieldD => camel g.name) (ty := fieldTy t.1) (h.fields t ht) hg
  have hl : ∀ w, (setLocal go!"x" ⟨.ptr (.name (camel t.1)), .data (.msg (vs.set i w))⟩ l).lookup go!"x" = some ⟨.ptr (.name (camel t.1)), .data (.msg (vs.set i w))⟩ :=
    fun w => lookup_setLocal_self _ hx
  have hcx := cell_var (lib := lib) (f := f) (rd := rd) (call := call) (n := go!"x") (by decide) hx
  refine ⟨by simp [xf], ?_, ?_, fun w w' => hcx.sig (.msg (vs.set i w)) (.msg (vs.set i w')), fun w w' => hcx.other (.msg (vs.set i w)) (.msg (vs.set i w'))⟩
  · intro w s hs
    refine eval_sel (isPackage_false (by simp [vx])) (eval_local (by rw [hs]; exact hl w)) ?_
    simp only [field, structOf, find_struct h ht, hfi, bind_apply, need_some, List.getElem?_set_self hi, pure_apply]
  · intro w v w' s hs ha
    rw [xf, vx, store_sel, bind_ok (one_ok (eval_local (by rw [hs]; exact hl w))), bind_apply]
    have : setField (program f) ⟨.ptr (.name (camel t.1)), .data (.msg (vs.set i w))⟩ (camel g.name) v s =
        .ok ⟨.ptr (.name (camel t.1)), .data (.msg (vs.set i w'))⟩ s := by
      simp only [setField, structOf, find_struct h ht, hfi, bind_apply, need_some]
      simp only [ha, need_some, pure_apply, List.set_set]
    rw [this]
    exact hcx.stores (.msg (vs.set i w)) (.msg (vs.set i w')) s hs

/-- An element of a slice. -/
theorem cell_index {root : Ident} {e : Expr} {et : Ty} {upd : V → List (Ident × TV)} (hc : Cell f rd call root e (.slice et) upd) {ws : List V} {j : BitVec 32}
    (hj : j.toNat < ws.length) (hi : ∀ w, (upd w).lookup go!"i" = some ⟨tUint32, .data (.scalar (.uint32 j))⟩) :
    Cell f rd call root (.index e vi) et (fun w => upd (.slice (ws.set j.toNat w))) where
  notPackage := by simp
  reads := by
    intro w s hs
    rw [eval, bind_ok (one_ok (hc.reads _ s hs)), vi, bind_ok (one_ok (eval_local (by rw [hs]; exact hi _)))]
    simp only [element, List.getElem?_set_self hj]
    rfl
  puts := by
    intro w v w' s hs ha
    rw [store_index, bind_ok (one_ok (hc.reads _ s hs)), vi, bind_ok (one_ok (eval_local (by rw [hs]; exact hi _))), bind_apply]
    simp only [setElement, ha, bind_apply, need_some, List.length_set, hj, if_true, pure_apply, List.set_set]
    exact hc.stores _ _ s hs
  sig := fun w w' => hc.sig _ _
  other := fun w w' => hc.other _ _

theorem store_err {s : St} {u : Value} (u' : Value) (h : s.locals.lookup go!"err" = some ⟨tError, u⟩) :
    store (program f) rd call verr ⟨tError, u'⟩ s = .ok () { s with locals := setLocal go!"err" ⟨tError, u'⟩ s.locals } := by
  have ha := assignTo_same (program f) ⟨tError, u'⟩
  rw [verr, store_var, bind_apply]
  simp only [GoRun.get, h, ha, bind_apply, need_some, set]

theorem sig_err {l : List (Ident × TV)} (h : l.lookup go!"err" = some noErr) (e : GoV2.Err) : (setLocal go!"err" (errTV e) l).map sig = l.map sig :=
  sig_setLocal h rfl

/-- `e, err = d.Method(…)` -/
theorem exec_read {root : Ident} {e callE : Expr} {t : Ty} {upd : V → List (Ident × TV)} (hc : Cell f rd call root e t upd) (h1 : root ≠ go!"d") (h2 : root ≠ go!"err")
    {w : V} (hE : DecEnv (upd w)) {m : Ident} {args : List TV} {q : Req} {z : V} (hm : m ≠ go!"Nil") (hq : request m args = some (q, t)) (hz : zero [] t = some (.data z))
    {s : St} (hs : s.locals = upd w) (hcall : eval (program f) rd call callE s = decoderCall rd m args s)
    (hret : ∀ r i, rd q s.inp = .ok (r, .value i) → ∃ v, returned i = some v) :
    match GoGen.read rd q s.inp with
    | .ok r i => ∃ v, returned i = some v ∧ exec (program f) rd call (.assign2 e verr callE) s = .ok .next ⟨upd v, s.out, r⟩
    | .err er => ∃ r, exec (program f) rd call (.assign2 e verr callE) s = .ok .next ⟨setLocal go!"err" (errTV er) (upd z), s.out, r⟩
    | .panic => exec (program f) rd call (.assign2 e verr callE) s = .fail .panic
    | _ => True := by
  rw [GoGen.read]
  unfold decoderCall at hcall
  rw [if_neg hm] at hcall
  simp only [hq] at hcall
  rw [exec, bind_apply, hcall]
  cases hr : rd q s.inp with
  | panic => rfl
  | ok p =>
    obtain ⟨r, o⟩ := p
    cases o with
    | notNil => trivial
    | value i =>
      obtain ⟨v, hv⟩ := hret r i hr
      refine ⟨v, hv, ?_⟩
      simp only [hv]
      rw [bind_ok (hc.stores w v { s with inp := r } hs)]
      have he := (hc.env h1 h2 hE v).err
      rw [bind_ok (store_err (s := ⟨upd v, s.out, r⟩) _ he)]
      show Res.ok Flow.next _ = _
      simp only [show (⟨tError, .err none⟩ : TV) = noErr from rfl, setLocal_self he]
    | error er =>
      refine ⟨r, ?_⟩
      simp only [hz]
      rw [bind_ok (hc.stores w z { s with inp := r } hs)]
      have he := (hc.env h1 h2 hE z).err
      rw [bind_ok (store_err (s := ⟨upd z, s.out, r⟩) _ he)]
      rfl

/-- `e, err = d.Method(…)`, for a check later. -/
theorem tries_read {root : Ident} {e callE : Expr} {t : Ty} {upd : V → List (Ident × TV)} (hc : Cell f rd call root e t upd) (h1 : root ≠ go!"d") (h2 : root ≠ go!"err")
    {w : V} (hE : DecEnv (upd w)) {m : Ident} {args : List TV} {q : Req} {z : V} (hm : m ≠ go!"Nil") (hq : request m args = some (q, t)) (hz : zero [] t = some (.data z))
    (hcall : ∀ s : St, s.locals = upd w → eval (program f) rd call callE s = decoderCall rd m args s)
    (hret : ∀ b r i, rd q b = .ok (r, .value i) → ∃ v, returned i = some v) (hR : R.In (upd z)) :
    Tries R f rd call [.assign2 e verr callE] (upd w) (GoGen.read rd q) (fun i l' => ∃ v, returned i = some v ∧ l' = upd v) := by
  intro s hs
  have hx := exec_read hc h1 h2 hE hm hq hz hs (hcall s hs) (hret s.inp)
  rw [exec_block_cons]
  cases hr : GoGen.read rd q s.inp with
  | ok r i =>
    rw [hr] at hx
    obtain ⟨v, hv, he⟩ := hx
    refine ⟨upd v, ⟨v, hv, rfl⟩, .of_eq (hc.sig w v), hc.env h1 h2 hE v, ?_⟩
    rw [he]
    exact exec_block_nil _
  | err er =>
    rw [hr] at hx
    obtain ⟨r, he⟩ := hx
    have hz' := hc.env h1 h2 hE z
    have hsig := (sig_err hz'.err er).trans (hc.sig w z)
    refine ⟨⟨setLocal go!"err" (errTV er) (upd z), s.out, r⟩, .of_eq hsig, ⟨hR.set (by decide) _, rfl⟩, base_sig hsig hE.base, lookup_setLocal_self _ hz'.err, ?_⟩
    rw [he]
    exact exec_block_nil _
  | panic => rw [hr] at hx; simp only at hx ⊢; rw [hx]
  | _ => trivial

end

end GoRun
