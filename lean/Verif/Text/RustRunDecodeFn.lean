import Verif.Text.RustRunDecode

/-!
# Running generated Rust code: the functions inside `decode`
-/

namespace RustRun

open Utils RustAst RustText
open Text hiding Tok
open Gen (PKind Scalar V Field Schema)
open Rust (Cursor Std)

/-- Names of the prelude. -/
def prelude : List Ident := [go!"Ok", go!"Some", go!"None", go!"Err"]

/-- Local variables: the cursor, and no names of the prelude. -/
structure Env (L : Locals) : Prop where
  b : L.lookup go!"b" = some (false, .cursor)
  base : ∀ n ∈ prelude, L.lookup n = none

theorem Env.cons {L : Locals} (h : Env L) {n : Ident} (h1 : n ≠ go!"b") (h2 : n ∉ prelude) (m : Bool) (v : RV) : Env ((n, m, v) :: L) := by
  constructor
  · rw [lookup_cons_ne (Ne.symm h1), h.b]
  · intro k hk
    rw [lookup_cons_ne (by rintro rfl; exact h2 hk), h.base k hk]

theorem long_name {s : Ident} (h : 4 < s.length) : s ≠ go!"b" ∧ s ∉ prelude := by
  have hl : ∀ x ∈ go!"b" :: prelude, x.length ≤ 4 := by decide +kernel
  exact ⟨fun he => by have := hl s (by rw [he]; decide +kernel); omega, fun he => by have := hl s (by simp [he]); omega⟩

theorem Env.long {L : Locals} (h : Env L) {n : Ident} (hn : 4 < n.length) (m : Bool) (v : RV) : Env ((n, m, v) :: L) := h.cons (long_name hn).1 (long_name hn).2 m v

theorem long_size (n : Ident) : 4 < (n ++ go!"_size").length := by
  have : (go!"_size" : Ident).length = 5 := by decide
  rw [List.length_append]; omega

theorem long_decode (n : Ident) : 4 < (n ++ go!"_decode").length := by
  have : (go!"_decode" : Ident).length = 7 := by decide
  rw [List.length_append]; omega

section
variable {P : List Item} {std : Std} {trait : Ident → Ident → List RV → M RV} {local_ : Sig → Stmt → List RV → M RV} {L : Locals} {α β γ : Type}

/-! ## The checks at the start -/

theorem eval_construct {n : Ident} {a : Expr} {v w : RV} (hL : L.lookup n = none) (ha : Val (eval P std trait local_ a) L v) (hc : construct n [v] = some w) :
    Val (eval P std trait local_ (.call (var n) (args1 a))) L w := by
  rw [var, eval]
  refine (args_one ha).bind ?_
  intro c
  rw [call1, bind_ok (s' := ⟨c, L⟩) (a := none) (by simp [get, hL])]
  simp only [hc]; rfl

theorem eval_none (hL : L.lookup go!"None" = none) : Val (eval P std trait local_ (var go!"None")) L .none := by
  intro c
  rw [var, eval, bind_ok (s' := ⟨c, L⟩) (a := none) (by simp [get, hL])]
  simp only [if_true]; rfl

theorem exec_ret {e : Expr} {v : RV} (h : Val (eval P std trait local_ e) L v) (c : Cursor) :
    exec P std trait local_ (block [.ret e]) ⟨c, L⟩ = (.ret v, ⟨c, L⟩) := by
  rw [exec_cons, exec, bind_apply, bind_ok (h c)]; rfl

theorem decode_none_noErr (c c' : Cursor) (e : Rust.DecodingError) : Rust.decode_none std c ≠ (.err e, c') := by
  rw [Rust.decode_none]
  intro h
  split at h
  · split at h
    · cases h
    · rename_i c1 _ _
      simp only [bind, Rust.Rs.bind, Rust.back] at h
      split at h <;> first | cases h | skip
      all_goals (split at * <;> simp_all <;> first | cases h | skip)
  · cases h
  · cases h

theorem body_noneCheck (hP : Ready P) (hL : Env L) {ss : List Stmt} {y : RustGen.D (Option α)} {g : α → RV}
    (h : Body (exec P std trait local_ (block ss)) L y (optRV g)) :
    Body (exec P std trait local_ (block (noneCheck :: ss))) L (do if ← RustGen.call (Rust.decode_none std) then pure none else y) (optRV g) := by
  intro c
  rw [exec_cons, noneCheck, exec, bind_apply, bind_apply, eval_cursorMethod hP hL.b rfl args_nil, d_bind]
  have e : cursorMethod std go!"decode_none" [] = fun s => match Rust.decode_none std s.cur with
     | (.ok b, c) => (.ok (.scalar (.bool b)), { s with cur := c })
     | (.err _, c) => (.bad, { s with cur := c })
     | (.panic, c) => (.panic, { s with cur := c }) := rfl
  rw [e]
  simp only [RustGen.call]
  rcases hd : Rust.decode_none std c with ⟨r, c'⟩
  cases r with
  | ok b =>
    cases b with
    | true =>
      have h1 := exec_ret (eval_construct (P := P) (std := std) (trait := trait) (local_ := local_) (hL.base go!"Ok" (by decide)) (eval_none (hL.base go!"None" (by decide))) rfl) c'
      refine ⟨.ret (.ok .none), L, ?_, rfl⟩
      simp only [done, noValue, inBlock, bind_apply]
      have h1' : exec P std trait local_ (block [.ret (okOf (var go!"None"))]) ⟨c', L⟩ = (.ret (.ok .none), ⟨c', L⟩) := h1
      simp only [h1']
      simp
      rfl
    | false => exact h c'
  | err er => exact absurd hd (decode_none_noErr _ _ _)
  | panic => exact ⟨.panic, L, rfl, rfl⟩

theorem simS_errorCheck (hP : Ready P) (hL : Env L) : SimS (exec P std trait local_ errorCheck) L (RustGen.probeError std) (fun _ => L) := by
  intro c
  rw [errorCheck, exec, bind_apply, eval_cursorMethod hP hL.b rfl args_nil]
  have e : cursorMethod std go!"decode_error" [] = liftDec (Rust.decode_error std) (fun v => .error (.remote v)) := rfl
  rw [e]
  simp only [RustGen.probeError, liftDec]
  rcases hd : Rust.decode_error std c with ⟨r, c'⟩
  cases r with
  | ok m =>
    have hE : Env ((go!"error", false, .error (.remote m)) :: L) := hL.long (by decide) _ _
    have h1 := exec_ret (eval_construct (P := P) (std := std) (trait := trait) (local_ := local_) (hE.base go!"Err" (by decide)) (eval_var (lookup_cons_self ..) rfl) rfl) c'
    refine ⟨L, ?_, by simp⟩
    simp only [if_true, done, noValue, inBlock, bind_apply, declare]
    have h1' : exec P std trait local_ (block [.ret (.call (var go!"Err") (args1 (var go!"error")))]) ⟨c', (go!"error", false, .error (.remote m)) :: L⟩ =
      (.ret (.err (.remote m)), ⟨c', (go!"error", false, .error (.remote m)) :: L⟩) := h1
    simp only [h1']
    simp [early, toErr]
  | err er => exact ⟨L, rfl, by simp⟩
  | panic => exact ⟨L, rfl, by simp⟩

/-! ## Loops -/

/-- A round of a loop: what is declared in it is forgotten. -/
theorem sim_round {body : M (Option RV)} {n : Ident} {w : RV} {x : RustGen.D α} {p l : α → Locals} (hl : ∀ a, (l a).length = L.length)
    (h : SimS body ((n, false, w) :: L) x (fun a => p a ++ l a)) :
    Sim (inBlock (declareAll [(n, w)] >>= fun _ => noValue body)) L x (fun _ => ()) l := by
  intro c
  obtain ⟨L', h1, h2⟩ := h c
  refine ⟨L'.drop (L'.length - L.length), ?_, ?_⟩
  · simp only [inBlock, declareAll, noValue, bind_apply, declare, pure_apply, h1]
    rcases hx : x c with ⟨r, c'⟩
    cases r <;> rfl
  · intro a ha
    rw [h2 a ha, List.length_append, hl a, Nat.add_sub_cancel, List.drop_left]

theorem exec_range {e : Expr} {n : Nat} {x : Ident} {b : Stmt} (h : Val (eval P std trait local_ e) L (.range 0 n)) {y : RustGen.D α} {l : α → Locals}
    (hl : Sim (loop (exec P std trait local_ b) ((List.range' 0 n).map fun i => [(x, .usize i)])) L y (fun _ => ()) l) :
    SimS (exec P std trait local_ (.for1 x e b)) L y l := by
  intro c
  obtain ⟨L', h1, h2⟩ := hl c
  refine ⟨L', ?_, h2⟩
  rw [exec, bind_ok (h c)]
  simp only [done, Nat.sub_zero, bind_apply]
  rw [h1]
  rcases hx : y c with ⟨r, c'⟩
  cases r <;> rfl

theorem eval_range0 {n : Ident} {m : Nat} {k : Bool} (h : L.lookup n = some (k, .usize m)) : Val (eval P std trait local_ (.range (.num go!"0") (var n))) L (.range 0 m) := by
  rw [eval]
  refine Val.bind (a := .usize 0) ?_ ((eval_var h rfl).bind (.pure _ _))
  rw [eval]
  exact Val.need (by rfl) _

/-! ## Repeated fields -/

/-- `x.push(e)`, `x.insert(e, e')` -/
theorem sim_mutate {n m : Ident} {args : Expr} {x : RustGen.D α} {g : α → List RV} {l : α → Locals} (hm : changing m = true)
    (h : Sim (evalArgs P std trait local_ args) L x g (fun _ => L)) (hs : ∀ a, setLocal n (mutate m (g a)) L = some (l a)) :
    Sim (eval P std trait local_ (.method (var n) m args)) L x (fun _ => .unit) l := by
  intro c
  obtain ⟨L', h1, h2⟩ := h c
  rw [var, eval, if_pos (by simpa [changing] using hm), bind_apply, h1]
  rcases hx : x c with ⟨r, c'⟩
  rw [hx] at h2
  cases r with
  | ok a =>
    obtain rfl := h2 a rfl
    refine ⟨l a, ?_, fun b hb => by cases hb; rfl⟩
    simp only [early, update, hs a]
  | _ => exact ⟨L', rfl, by simp⟩

/-- One element is read and appended. -/
theorem sim_push {e : Expr} {i : Nat} {l : List RV} {x : RustGen.D V} {g : V → RV}
    (h : Sim (eval P std trait local_ e) ((go!"_", false, .usize i) :: (go!"temp", true, .vec l) :: L) x g (fun _ => (go!"_", false, .usize i) :: (go!"temp", true, .vec l) :: L)) :
    SimS (exec P std trait local_ (block [.expr (.method (var go!"temp") go!"push" (args1 e))])) ((go!"_", false, .usize i) :: (go!"temp", true, .vec l) :: L) x
      (fun v => [(go!"_", false, .usize i)] ++ ((go!"temp", true, .vec (l ++ [g v])) :: L)) := by
  refine simS_one (simS_expr (sim_mutate rfl (args_sim h) fun v => ?_))
  rw [setLocal, if_neg (by decide), setLocal, if_pos rfl, if_pos rfl]
  rfl

theorem sim_elems {e : Expr} {rec : RustGen.Callee} {k : PKind} {r : Nat} {g : V → RV}
    (h : ∀ i l, Sim (eval P std trait local_ e) ((go!"_", false, .usize i) :: (go!"temp", true, .vec l) :: L) (RustGen.decElem std rec k r) g
      (fun _ => (go!"_", false, .usize i) :: (go!"temp", true, .vec l) :: L)) : ∀ (n i : Nat) (l : List RV),
    Sim (loop (exec P std trait local_ (block [.expr (.method (var go!"temp") go!"push" (args1 e))])) ((List.range' i n).map fun i => [(go!"_", .usize i)]))
      ((go!"temp", true, .vec l) :: L) (RustGen.decElems std rec k r n) (fun _ => ()) (fun vs => (go!"temp", true, .vec (l ++ vs.map g)) :: L) := by
  intro n
  induction n with
  | zero =>
    intro i l c
    exact ⟨_, rfl, fun a ha => by cases ha; simp⟩
  | succ n ih =>
    intro i l
    rw [List.range'_succ, List.map_cons, loop, RustGen.decElems]
    refine Sim.bind (sim_round (l := fun v => (go!"temp", true, .vec (l ++ [g v])) :: L) (p := fun _ => [(go!"_", false, .usize i)]) (by simp) (sim_push (h i l))) fun v => ?_
    have h1 := ih (i + 1) (l ++ [g v])
    intro c
    obtain ⟨L', h2, h3⟩ := h1 c
    refine ⟨L', ?_, ?_⟩
    · rw [h2, d_bind]
      rcases RustGen.decElems std rec k r n c with ⟨q, c'⟩
      cases q <;> rfl
    · intro vs hv
      rw [d_bind] at hv
      rcases hq : RustGen.decElems std rec k r n c with ⟨q, c'⟩
      rw [hq] at hv h3
      cases q <;> cases hv
      rename_i ws
      rw [h3 ws rfl]
      simp

/-- The function for a repeated field. -/
theorem body_slice (hP : Ready P) (hV : declares P go!"Vec" = false) (hL : Env L) (n : Ident) {k : PKind} {e : Expr} {rec : RustGen.Callee} {r : Nat} {g : V → RV}
    {kk : Rust.Kind} (hk : RustGen.getKind k = some kk)
    (h : ∀ L, Env L → Sim (eval P std trait local_ e) L (RustGen.decElem std rec k r) g (fun _ => L)) :
    Body (exec P std trait local_ (block
      [.let1 false (n ++ go!"_size") (bcall go!"decode_array" (args1 (kindOf k))),
       .let1 true go!"temp" (.call (.path [go!"Vec", go!"with_capacity"]) (args1 (var (n ++ go!"_size")))),
       .for1 go!"_" (.range (.num go!"0") (var (n ++ go!"_size"))) (block
         [.expr (.method (var go!"temp") go!"push" (args1 e))]),
       .tail (okOf (someOf (var go!"temp")))])) L
      (do
        let size ← RustGen.call (Rust.decode_array std kk)
        let vs ← RustGen.decElems std rec k r size
        pure (some (V.slice vs))) (optRV fun v => match v with | .slice vs => .vec (vs.map g) | _ => .unit) := by
  have hsz : ∀ m : Nat, Env ((n ++ go!"_size", false, .usize m) :: L) := fun m => hL.long (long_size n) _ _
  have htemp : (go!"temp" : Ident) ≠ n ++ go!"_size" := by
    intro he
    have := long_size n
    rw [← he] at this
    exact absurd this (by decide)
  refine body_cons (simS_let (Call.tr (Call.sim_call hP hL.b rfl (args_one (eval_kindOf hP hk)) (call_liftDec (Rust.decode_array std kk) .usize L)))) fun m => ?_
  have hpure : ∀ {α : Type} (y : RustGen.D α), y = (pure () >>= fun _ => y) := fun _ => rfl
  have h2 : SimS (exec P std trait local_ (.let1 true go!"temp" (.call (.path [go!"Vec", go!"with_capacity"]) (args1 (var (n ++ go!"_size"))))))
      ((n ++ go!"_size", false, .usize m) :: L) (pure ()) (fun _ => (go!"temp", true, .vec []) :: (n ++ go!"_size", false, .usize m) :: L) := by
    refine simS_let (Sim.pure ?_)
    rw [eval]
    refine (args_one (eval_var (lookup_cons_self ..) rfl)).bind ?_
    rw [call2, if_neg (by decide), if_neg (by decide), libFunction, if_pos ⟨rfl, rfl, hV⟩]
    exact fun _ => rfl
  rw [hpure (RustGen.decElems std rec k r m >>= _)]
  refine body_cons h2 fun _ => ?_
  have h3 := sim_elems (L := (n ++ go!"_size", false, .usize m) :: L) (fun i l => h _ (((hsz m).cons (by decide) (by decide) _ _).cons (by decide) (by decide) _ _)) m 0 []
  refine body_cons (exec_range (n := m) (eval_range0 (k := false) ?_) h3) fun vs => ?_
  · rw [lookup_cons_ne (Ne.symm htemp), lookup_cons_self]
  · have hE : Env ((go!"temp", true, .vec ([] ++ vs.map g)) :: (n ++ go!"_size", false, .usize m) :: L) := (hsz m).cons (by decide) (by decide) _ _
    have h4 := body_okSome (P := P) (std := std) (trait := trait) (local_ := local_) (e := var go!"temp") (hE.base _ (by decide)) (hE.base _ (by decide)) (x := (pure () : RustGen.D PUnit))
      (g := fun _ => .vec ([] ++ vs.map g)) (by simp) (Sim.pure (eval_var (lookup_cons_self ..) rfl))
    intro c
    obtain ⟨q, L', h5, h6⟩ := h4 c
    refine ⟨q, L', h5, ?_⟩
    rw [h6]
    show asResult _ (.ok _) = asResult _ (.ok _)
    simp [asResult, optRV]

/-! ## Maps -/

theorem insert_map (g : V → RV) (k : Scalar) (v : V) : ∀ (ks : List Scalar) (vs : List V),
    insert k (g v) ks (vs.map g) = ((RustGen.insert k v ks vs).1, ((RustGen.insert k v ks vs).2).map g) := by
  intro ks
  induction ks with
  | nil => intro vs; cases vs <;> simp [insert, RustGen.insert]
  | cons k' ks ih =>
    intro vs
    cases vs with
    | nil => simp [insert, RustGen.insert]
    | cons v' vs =>
      simp only [List.map_cons, insert, RustGen.insert]
      split
      · simp
      · simp [ih]

/-- `x.ok()` -/
def attempt {α : Type} (x : Rust.Dec α) : RustGen.D (Option α) := fun c => match x c with
  | (.ok a, c) => (.ok (some a), c)
  | (.err _, c) => (.ok none, c)
  | (.panic, c) => (.panic, c)

/-- `b.decode_map(k, v).ok().ok_or(DecodingError::InvalidU32)?` -/
theorem sim_size (hP : Ready P) (hb : L.lookup go!"b" = some (false, .cursor)) {kk k : PKind} {keyKind valKind : Rust.Kind} (hkk : RustGen.getKind kk = some keyKind)
    (hk : RustGen.getKind k = some valKind) :
    Sim (eval P std trait local_ (okOr (.method (.method vb go!"decode_map" (args2 (kindOf kk) (kindOf k))) go!"ok" .anil) go!"InvalidU32")) L
      (RustGen.callOr (Rust.decode_map std keyKind valKind) .InvalidU32) .usize (fun _ => L) := by
  have h1 : Call (eval P std trait local_ (.method vb go!"decode_map" (args2 (kindOf kk) (kindOf k)))) L (RustGen.call (Rust.decode_map std keyKind valKind)) .usize :=
    Call.sim_call hP hb rfl (args_cons (eval_kindOf hP hkk) (args_one (eval_kindOf hP hk))) (call_liftDec _ _ _)
  have h2 : Sim (eval P std trait local_ (.method (.method vb go!"decode_map" (args2 (kindOf kk) (kindOf k))) go!"ok" .anil)) L (attempt (Rust.decode_map std keyKind valKind)) (optRV .usize) (fun _ => L) := by
    intro c
    refine ⟨L, ?_, fun _ _ => rfl⟩
    rw [eval_method rfl, bind_apply, h1 c]
    simp only [RustGen.call, attempt]
    rcases Rust.decode_map std keyKind valKind c with ⟨r, c'⟩
    cases r with
    | ok a => simp only [asResult]; rw [bind_ok (args_nil c')]; rfl
    | err e => simp only [asResult]; rw [bind_ok (args_nil c')]; rfl
    | panic => rfl
  have e : RustGen.callOr (Rust.decode_map std keyKind valKind) .InvalidU32 = (attempt (Rust.decode_map std keyKind valKind) >>= fun o => RustGen.okOr o .InvalidU32) := by
    funext c
    simp only [RustGen.callOr, d_bind, attempt]
    rcases Rust.decode_map std keyKind valKind c with ⟨r, c'⟩
    cases r <;> rfl
  rw [e]
  exact sim_okOr hP (by decide +kernel) h2

theorem sim_entries {ek ev : Expr} {S : Schema} {rec : RustGen.Callee} {kk k : PKind} {r : Nat} {g : V → RV} (hL : Env L) (hg : ∀ v, (g v).plain = true)
    (hk : ∀ L, Env L → Sim (eval P std trait local_ ek) L (RustGen.decKey std kk) .scalar (fun _ => L))
    (hv : ∀ L, Env L → Sim (eval P std trait local_ ev) L (RustGen.decMapValue std S rec k r) g (fun _ => L)) : ∀ (n i : Nat) (ks : List Scalar) (vs : List V),
    Sim (loop (exec P std trait local_ (block [.let1 false go!"k" ek, .let1 false go!"v" ev,
        .expr (.method (var go!"map") go!"insert" (args2 (var go!"k") (var go!"v")))])) ((List.range' i n).map fun i => [(go!"_", .usize i)]))
      ((go!"map", true, .map ks (vs.map g)) :: L) (RustGen.decEntries std S rec kk k r n ks vs) (fun _ => ()) (fun e => (go!"map", true, .map e.1 (e.2.map g)) :: L) := by
  intro n
  induction n with
  | zero =>
    intro i ks vs c
    exact ⟨_, rfl, fun a ha => by cases ha; rfl⟩
  | succ n ih =>
    intro i ks vs
    rw [List.range'_succ, List.map_cons, loop, RustGen.decEntries]
    let one : RustGen.D (Scalar × V) := do
      let key ← RustGen.decKey std kk
      let v ← RustGen.decMapValue std S rec k r
      pure (key, v)
    have e : (do
        let key ← RustGen.decKey std kk
        let v ← RustGen.decMapValue std S rec k r
        RustGen.decEntries std S rec kk k r n (RustGen.insert key v ks vs).1 (RustGen.insert key v ks vs).2) =
        (one >>= fun p => RustGen.decEntries std S rec kk k r n (RustGen.insert p.1 p.2 ks vs).1 (RustGen.insert p.1 p.2 ks vs).2) := by
      funext c
      simp only [one, d_bind]
      rcases RustGen.decKey std kk c with ⟨q, c'⟩
      cases q with
      | ok key =>
        simp only [d_bind]
        rcases RustGen.decMapValue std S rec k r c' with ⟨q, c''⟩
        cases q <;> rfl
      | _ => rfl
    rw [e]
    refine Sim.bind (sim_round (x := one) (l := fun p => (go!"map", true, .map (RustGen.insert p.1 p.2 ks vs).1 ((RustGen.insert p.1 p.2 ks vs).2.map g)) :: L)
      (p := fun p => [(go!"v", false, g p.2), (go!"k", false, .scalar p.1), (go!"_", false, .usize i)]) (by simp) ?_) fun p => ih (i + 1) _ _
    have h1 : Env ((go!"map", true, .map ks (vs.map g)) :: L) := hL.cons (by decide) (by decide) _ _
    have h2 : Env ((go!"_", false, .usize i) :: (go!"map", true, .map ks (vs.map g)) :: L) := h1.cons (by decide) (by decide) _ _
    refine simS_cons (simS_let (hk _ h2)) fun key => ?_
    have h3 : Env ((go!"k", false, .scalar key) :: (go!"_", false, .usize i) :: (go!"map", true, .map ks (vs.map g)) :: L) := h2.cons (by decide) (by decide) _ _
    refine simS_cons (simS_let (hv _ h3)) fun v => ?_
    refine simS_one (simS_expr (g := fun _ => .unit) ?_)
    intro c
    refine ⟨[(go!"v", false, g v), (go!"k", false, .scalar key), (go!"_", false, .usize i)] ++
      (go!"map", true, .map (RustGen.insert key v ks vs).1 ((RustGen.insert key v ks vs).2.map g)) :: L, ?_, fun a ha => by cases ha; rfl⟩
    have ha : Val (evalArgs P std trait local_ (args2 (var go!"k") (var go!"v")))
        ((go!"v", false, g v) :: (go!"k", false, .scalar key) :: (go!"_", false, .usize i) :: (go!"map", true, .map ks (vs.map g)) :: L) [.scalar key, g v] := by
      refine args_cons (eval_var (m := false) ?_ rfl) (args_one (eval_var (lookup_cons_self ..) (hg v)))
      rw [lookup_cons_ne (by decide), lookup_cons_self]
    rw [var, eval, if_pos (.inr rfl), bind_ok (ha c)]
    have e : setLocal go!"map" (mutate go!"insert" [.scalar key, g v])
        ((go!"v", false, g v) :: (go!"k", false, .scalar key) :: (go!"_", false, .usize i) :: (go!"map", true, .map ks (vs.map g)) :: L) =
        some ([(go!"v", false, g v), (go!"k", false, .scalar key), (go!"_", false, .usize i)] ++
          (go!"map", true, .map (RustGen.insert key v ks vs).1 ((RustGen.insert key v ks vs).2.map g)) :: L) := by
      rw [setLocal, if_neg (by decide), setLocal, if_neg (by decide), setLocal, if_neg (by decide), setLocal, if_pos rfl, if_pos rfl]
      simp only [mutate, if_true, insert_map]
      rfl
    simp only [update, e]
    rfl

/-- The function for a map field. -/
theorem body_map (hP : Ready P) (hM : imported P [go!"std", go!"collections", go!"HashMap"] = true) (hL : Env L) {ek ev : Expr} {S : Schema} {rec : RustGen.Callee}
    {kk k : PKind} {r : Nat} {g : V → RV} (hg : ∀ v, (g v).plain = true) {keyKind valKind : Rust.Kind} (hkk : RustGen.getKind kk = some keyKind)
    (hk : RustGen.getKind k = some valKind) (h1 : ∀ L, Env L → Sim (eval P std trait local_ ek) L (RustGen.decKey std kk) .scalar (fun _ => L))
    (h2 : ∀ L, Env L → Sim (eval P std trait local_ ev) L (RustGen.decMapValue std S rec k r) g (fun _ => L)) :
    Body (exec P std trait local_ (block
      [noneCheck,
       .let1 false go!"size" (okOr (.method (.method vb go!"decode_map" (args2 (kindOf kk) (kindOf k))) go!"ok" .anil) go!"InvalidU32"),
       .let1 true go!"map" (.call (.path [go!"HashMap", go!"new"]) .anil),
       .for1 go!"_" (.range (.num go!"0") (var go!"size")) (block
         [.let1 false go!"k" ek, .let1 false go!"v" ev,
          .expr (.method (var go!"map") go!"insert" (args2 (var go!"k") (var go!"v")))]),
       .tail (okOf (someOf (var go!"map")))])) L (RustGen.decMap std S rec kk k r)
      (optRV fun v => match v with | .map ks vs => .map ks (vs.map g) | _ => .unit) := by
  rw [RustGen.decMap, hkk, hk]
  refine body_noneCheck hP hL ?_
  refine body_cons (simS_let (sim_size hP hL.b hkk hk)) fun m => ?_
  have hsz : Env ((go!"size", false, .usize m) :: L) := hL.cons (by decide) (by decide) _ _
  have hpure : ∀ {α : Type} (y : RustGen.D α), y = (pure () >>= fun _ => y) := fun _ => rfl
  have h3 : SimS (exec P std trait local_ (.let1 true go!"map" (.call (.path [go!"HashMap", go!"new"]) .anil)))
      ((go!"size", false, .usize m) :: L) (pure ()) (fun _ => (go!"map", true, .map [] ([].map g)) :: (go!"size", false, .usize m) :: L) := by
    refine simS_let (Sim.pure ?_)
    rw [eval]
    refine args_nil.bind ?_
    rw [call2, if_neg (by decide), if_neg (by decide), libFunction, if_pos ⟨rfl, rfl, hM⟩]
    exact fun _ => rfl
  rw [hpure (RustGen.decEntries std S rec kk k r m [] [] >>= _)]
  refine body_cons h3 fun _ => ?_
  have h4 := sim_entries hsz hg h1 h2 m 0 [] []
  refine body_cons (exec_range (n := m) (eval_range0 (k := false) ?_) h4) fun e => ?_
  · rw [lookup_cons_ne (by decide), lookup_cons_self]
  · have hE : Env ((go!"map", true, .map e.1 (e.2.map g)) :: (go!"size", false, .usize m) :: L) := hsz.cons (by decide) (by decide) _ _
    have h5 := body_okSome (P := P) (std := std) (trait := trait) (local_ := local_) (e := var go!"map") (hE.base _ (by decide)) (hE.base _ (by decide)) (x := (pure () : RustGen.D PUnit))
      (g := fun _ => .map e.1 (e.2.map g)) (by simp) (Sim.pure (eval_var (lookup_cons_self ..) rfl))
    intro c
    obtain ⟨q, L', h6, h7⟩ := h5 c
    exact ⟨q, L', h6, h7⟩

end

end RustRun
