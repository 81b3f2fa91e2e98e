import Verif.Text.GoLookup

/-!
# Running generated Go code: expressions and blocks
-/

namespace GoRun

open Utils Text GoAst GoText Gen Spec

variable {lib : Lib}

/-! ## The monad -/

theorem bind_apply {α β : Type} (x : M α) (k : α → M β) (s : St) : (x >>= k) s = match x s with
    | .ok a s => k a s
    | .fail e => .fail e := rfl

theorem pure_apply {α : Type} (a : α) (s : St) : (pure a : M α) s = .ok a s := rfl

theorem bind_ok {α β : Type} {x : M α} {s s' : St} {a : α} (h : x s = .ok a s') (k : α → M β) : (x >>= k) s = k a s' := by
  rw [bind_apply, h]

theorem bind_fail {α β : Type} {x : M α} {s : St} {e : Fault} (h : x s = .fail e) (k : α → M β) : (x >>= k) s = .fail e := by
  rw [bind_apply, h]

theorem need_some {α : Type} (a : α) (s : St) : need (some a) s = .ok a s := rfl

theorem one_ok {m : M (List TV)} {s s' : St} {v : TV} (h : m s = .ok [v] s') : one m s = .ok v s' := by
  rw [one, bind_ok h]; rfl

/-! ## Variables -/

theorem lookup_cons_ne {α : Type} {n m : Ident} (h : n ≠ m) (v : α) (l : List (Ident × α)) : ((m, v) :: l).lookup n = l.lookup n := by
  have : (n == m) = false := by simpa using h
  rw [List.lookup, this]

theorem lookup_cons_self {α : Type} (n : Ident) (v : α) (l : List (Ident × α)) : ((n, v) :: l).lookup n = some v := by
  simp [List.lookup]

theorem setLocal_self {n : Ident} {v : TV} : ∀ {l : List (Ident × TV)}, l.lookup n = some v → setLocal n v l = l
  | [], h => by simp at h
  | (m, w) :: l, h => by
    rw [setLocal]
    by_cases hm : n = m
    · subst hm
      rw [lookup_cons_self] at h
      cases h
      simp
    · rw [if_neg hm, setLocal_self (by rwa [lookup_cons_ne hm] at h)]

theorem setLocal_length (n : Ident) (v : TV) : ∀ (l : List (Ident × TV)), (setLocal n v l).length = l.length
  | [] => rfl
  | (m, w) :: l => by
    rw [setLocal]
    split
    · rfl
    · simp [setLocal_length n v l]

theorem lookup_setLocal_ne {n m : Ident} (v : TV) (h : m ≠ n) : ∀ (l : List (Ident × TV)), (setLocal n v l).lookup m = l.lookup m
  | [] => rfl
  | (k, w) :: l => by
    rw [setLocal]
    split
    · rename_i hk; subst hk; rw [lookup_cons_ne h, lookup_cons_ne h]
    · by_cases hm : m = k
      · subst hm; rw [lookup_cons_self, lookup_cons_self]
      · rw [lookup_cons_ne hm, lookup_cons_ne hm, lookup_setLocal_ne v h l]

theorem lookup_setLocal_self {n : Ident} (v : TV) {w : TV} : ∀ {l : List (Ident × TV)}, l.lookup n = some w → (setLocal n v l).lookup n = some v
  | [], h => by simp at h
  | (k, u) :: l, h => by
    rw [setLocal]
    by_cases hk : n = k
    · subst hk; rw [if_pos rfl, lookup_cons_self]
    · rw [if_neg hk, lookup_cons_ne hk]
      rw [lookup_cons_ne hk] at h
      exact lookup_setLocal_self v h

/-- Names that must not be local variables. -/
def reserved : List Ident := [go!"polyglot", go!"uint32", go!"len", go!"nil"]

/-- No local variable hides a package, a predeclared function or a declaration of the file. -/
def Env [Lib] (f : FileD) (l : List (Ident × TV)) : Prop := ∀ n, n ∈ reserved ∨ n ∈ (program f).flatMap Decl.declared → l.lookup n = none

theorem Env.cons {f : FileD} {l : List (Ident × TV)} (h : Env f l) {n : Ident} (h1 : n ∉ reserved) (h2 : n ∉ (program f).flatMap Decl.declared) (v : TV) :
    Env f ((n, v) :: l) := by
  intro m hm
  rw [lookup_cons_ne]
  · exact h m hm
  · rintro rfl
    rcases hm with hm | hm
    · exact h1 hm
    · exact h2 hm

/-- No local variable hides a package or a predeclared function. -/
def Base (l : List (Ident × TV)) : Prop := ∀ n ∈ reserved, l.lookup n = none

theorem Env.base {f : FileD} {l : List (Ident × TV)} (h : Env f l) : Base l := fun n hn => h n (.inl hn)

theorem Base.cons {l : List (Ident × TV)} (h : Base l) {n : Ident} (h1 : n ∉ reserved) (v : TV) : Base ((n, v) :: l) := by
  intro m hm
  rw [lookup_cons_ne (by rintro rfl; exact h1 hm)]
  exact h m hm

theorem Env.nil (f : FileD) : Env f [] := fun _ _ => rfl

theorem Env.set {f : FileD} {l : List (Ident × TV)} (h : Env f l) (n : Ident) (v : TV) : Env f (setLocal n v l) := by
  intro m hm
  have := h m hm
  clear h
  induction l with
  | nil => rfl
  | cons p l ih =>
    obtain ⟨k, w⟩ := p
    have hk : m ≠ k := by
      rintro rfl
      rw [lookup_cons_self] at this; cases this
    rw [lookup_cons_ne hk] at this
    rw [setLocal]
    split
    · rw [lookup_cons_ne hk]; exact this
    · rw [lookup_cons_ne hk]; exact ih this

/-! ## Fields -/

theorem fieldIndex_eq {α : Type} {name : α → Ident} {ty : α → Ty} : ∀ {fs : List α}, (fs.map name).Nodup → ∀ {i : Nat} {g : α}, fs[i]? = some g →
    fieldIndex (fs.map fun g => (name g, ty g)) (name g) = some (i, ty g)
  | [], _, i, g, h => by simp at h
  | a :: fs, hn, 0, g, h => by
    simp only [List.getElem?_cons_zero, Option.some.injEq] at h
    subst h
    simp [fieldIndex]
  | a :: fs, hn, i + 1, g, h => by
    simp only [List.getElem?_cons_succ] at h
    rw [List.map_cons, List.nodup_cons] at hn
    have hne : name g ≠ name a := by
      intro he
      exact hn.1 (he ▸ List.mem_map.mpr ⟨g, List.mem_of_getElem? h, rfl⟩)
    simp [fieldIndex, hne, fieldIndex_eq hn.2 h]

/-! ## Expressions -/

section
variable {P : List Decl} {rd : GoGen.Codec} {call : Callee}

theorem target_var (f : Ident) : target P rd call (.var f) = (do
    match ← get f with
    | some _ => fail .bad
    | none => pure (.name f)) := rfl

theorem target_sel (e : Expr) (m : Ident) (s : St) : target P rd call (.sel e m) s =
    if isPackage s go!"polyglot" e then .ok (.lib m) s else (do pure (.method (← one (eval P rd call e)) m) : M _) s := rfl

theorem store_var (n : Ident) (v : TV) : store P rd call (.var n) v = (do
    match ← get n with
    | some w => set n ⟨w.ty, ← need (assignTo P w.ty v)⟩
    | none => fail .bad) := rfl

theorem store_sel (e : Expr) (n : Ident) (v : TV) : store P rd call (.sel e n) v = (do
    let r ← one (eval P rd call e)
    store P rd call e (← setField P r n v)) := rfl

theorem store_index (e i : Expr) (v : TV) : store P rd call (.index e i) v = (do
    let r ← one (eval P rd call e)
    let i ← one (eval P rd call i)
    store P rd call e (← setElement P r i v)) := rfl

theorem storeReceiver_sel (e : Expr) (n : Ident) (v : TV) : storeReceiver P rd call (.sel e n) (some v) = store P rd call e v := rfl

theorem eval_local {n : Ident} {s : St} {v : TV} (h : s.locals.lookup n = some v) : eval P rd call (.var n) s = .ok [v] s := by
  rw [eval, bind_apply]
  simp [GoRun.get, h, pure_apply]

theorem isPackage_false {s : St} {p : Ident} {e : Expr} (h : e ≠ .var p) : isPackage s p e = false := by simp [isPackage, h]

/-- `e.n` for a struct. -/
theorem eval_sel {e : Expr} {n : Ident} {s s' : St} {v w : TV} (hp : isPackage s go!"polyglot" e = false) (he : eval P rd call e s = .ok [v] s')
    (hf : field P v n s' = .ok w s') : eval P rd call (.sel e n) s = .ok [w] s' := by
  rw [eval]
  simp only [hp]
  show (do pure [← field P (← one (eval P rd call e)) n] : M _) s = _
  rw [bind_ok (one_ok he), bind_ok hf]; rfl

/-- `polyglot.K` -/
theorem eval_kind {n : Ident} {s : St} {k : Byte} (hs : s.locals.lookup go!"polyglot" = none) (hk : kinds.lookup n = some k) :
    eval P rd call (polyglot n) s = .ok [⟨tKind, .kind k⟩] s := by
  rw [polyglot, eval]
  simp [isPackage, hs, hk]

/-- The name of a function. -/
theorem target_name {n : Ident} {s : St} (h : s.locals.lookup n = none) : target P rd call (.var n) s = .ok (.name n) s := by
  rw [target_var, bind_apply]
  simp [GoRun.get, h, pure_apply]

theorem target_method {e : Expr} {n : Ident} {s s' : St} {v : TV} (hp : isPackage s go!"polyglot" e = false) (he : eval P rd call e s = .ok [v] s') :
    target P rd call (.sel e n) s = .ok (.method v n) s' := by
  rw [target_sel]
  simp only [hp]
  show (do pure (Target.method (← one (eval P rd call e)) n) : M _) s = _
  rw [bind_ok (one_ok he)]; rfl

theorem storeReceiver_none (f : Expr) (s : St) : storeReceiver P rd call f none s = .ok () s := by
  cases f <;> rfl

theorem eval_call0 {f : Expr} {s s1 s2 s3 : St} {t : Target} {r : List TV × Option TV} (hf : target P rd call f s = .ok t s1)
    (hr : apply P rd call t [] s1 = .ok r s2) (hs : storeReceiver P rd call f r.2 s2 = .ok () s3) :
    eval P rd call (.call0 f) s = .ok r.1 s3 := by
  rw [eval, bind_ok hf, bind_ok hr, bind_ok hs]; rfl

theorem eval_call1 {f a : Expr} {s s1 s2 s3 s4 : St} {t : Target} {v : TV} {r : List TV × Option TV} (hf : target P rd call f s = .ok t s1)
    (ha : eval P rd call a s1 = .ok [v] s2) (hr : apply P rd call t [v] s2 = .ok r s3) (hs : storeReceiver P rd call f r.2 s3 = .ok () s4) :
    eval P rd call (.call1 f a) s = .ok r.1 s4 := by
  rw [eval, bind_ok hf, bind_ok (one_ok ha), bind_ok hr, bind_ok hs]; rfl

theorem eval_call2 {f a b : Expr} {s s1 s2 s3 s4 s5 : St} {t : Target} {v w : TV} {r : List TV × Option TV} (hf : target P rd call f s = .ok t s1)
    (ha : eval P rd call a s1 = .ok [v] s2) (hb : eval P rd call b s2 = .ok [w] s3) (hr : apply P rd call t [v, w] s3 = .ok r s4)
    (hs : storeReceiver P rd call f r.2 s4 = .ok () s5) : eval P rd call (.call2 f a b) s = .ok r.1 s5 := by
  rw [eval, bind_ok hf, bind_ok (one_ok ha), bind_ok (one_ok hb), bind_ok hr, bind_ok hs]; rfl

theorem eval_call3 {f a b c : Expr} {s s1 s2 s3 s4 s5 s6 : St} {t : Target} {v w u : TV} {r : List TV × Option TV} (hf : target P rd call f s = .ok t s1)
    (ha : eval P rd call a s1 = .ok [v] s2) (hb : eval P rd call b s2 = .ok [w] s3) (hc : eval P rd call c s3 = .ok [u] s4)
    (hr : apply P rd call t [v, w, u] s4 = .ok r s5)
    (hs : storeReceiver P rd call f r.2 s5 = .ok () s6) : eval P rd call (.call3 f a b c) s = .ok r.1 s6 := by
  rw [eval, bind_ok hf, bind_ok (one_ok ha), bind_ok (one_ok hb), bind_ok (one_ok hc), bind_ok hr, bind_ok hs]; rfl

/-- A call of a method of the encoder. -/
theorem apply_encoder {ty : Ty} {m : Ident} {args : List TV} {i : Item} (h : encoderCall m args = some i) (s : St) :
    apply P rd call (.method ⟨ty, .encoder⟩ m) args s = .ok ([⟨tEncoder, .encoder⟩], none) { s with out := s.out ++ [i] } := by
  simp [apply, h]

/-! ## Blocks -/

theorem exec_block_cons (st : Stmt) (l : List Stmt) (s : St) : exec P rd call (block (st :: l)) s = match exec P rd call st s with
    | .ok .next s => exec P rd call (block l) s
    | .ok (.ret vs) s => .ok (.ret vs) s
    | .fail e => .fail e := by
  show exec P rd call (.seq st (block l)) s = _
  rw [exec, bind_apply]
  cases exec P rd call st s with
  | fail e => rfl
  | ok f s => cases f <;> rfl

theorem exec_block_nil (s : St) : exec P rd call (block []) s = .ok .next s := by
  show exec P rd call .skip s = _
  rw [exec]; rfl

theorem exec_block_append (a b : List Stmt) (s : St) : exec P rd call (block (a ++ b)) s = match exec P rd call (block a) s with
    | .ok .next s => exec P rd call (block b) s
    | .ok (.ret vs) s => .ok (.ret vs) s
    | .fail e => .fail e := by
  induction a generalizing s with
  | nil => rw [exec_block_nil]; rfl
  | cons st a ih =>
    rw [List.cons_append, exec_block_cons, exec_block_cons]
    cases exec P rd call st s with
    | fail e => rfl
    | ok f s =>
      cases f with
      | next => exact ih s
      | ret vs => rfl

theorem inBlock_ok {α : Type} {m : M α} {s s' : St} {a : α} (h : m s = .ok a s') (hl : s'.locals.length = s.locals.length) : inBlock m s = .ok a s' := by
  unfold inBlock
  rw [h]
  simp [hl]

theorem isTrue_ok {m : M (List TV)} {s s' : St} {b : Bool} {t : Ty} (h : m s = .ok [⟨t, .data (.scalar (.bool b))⟩] s') : isTrue m s = .ok b s' := by
  rw [isTrue, bind_ok (one_ok h)]; rfl

end

end GoRun
