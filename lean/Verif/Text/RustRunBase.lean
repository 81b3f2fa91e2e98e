import Verif.Text.RustRun
import Verif.Text.RustProgram
import Verif.Gen.RustRound

/-!
# Running generated Rust code: expressions
-/

namespace RustRun

open Utils RustAst RustText
open Text hiding Tok
open Gen (PKind Scalar V Field Schema)
open Rust (Cursor Std)

abbrev Locals := List (Ident × Bool × RV)

section
variable {α β γ : Type}

/-! ## The monad -/

theorem bind_apply (x : M α) (k : α → M β) (s : St) : (x >>= k) s = match x s with
    | (.ok a, s) => k a s
    | (.ret v, s) => (.ret v, s)
    | (.panic, s) => (.panic, s)
    | (.bad, s) => (.bad, s)
    | (.overflow, s) => (.overflow, s) := rfl

theorem pure_apply (a : α) (s : St) : (pure a : M α) s = (.ok a, s) := rfl

theorem bind_ok {x : M α} {s s' : St} {a : α} (h : x s = (.ok a, s')) (k : α → M β) : (x >>= k) s = k a s' := by
  rw [bind_apply, h]

/-- The code has a value and does nothing else. -/
def Val (m : M α) (L : Locals) (a : α) : Prop := ∀ c, m ⟨c, L⟩ = (.ok a, ⟨c, L⟩)

theorem Val.pure (a : α) (L : Locals) : Val (pure a) L a := fun _ => rfl

theorem Val.bind {m : M α} {k : α → M β} {L : Locals} {a : α} {b : β} (h : Val m L a) (hk : Val (k a) L b) : Val (m >>= k) L b := by
  intro c
  rw [bind_ok (h c)]
  exact hk c

theorem Val.need {a : α} {o : Option α} (h : o = some a) (L : Locals) : Val (need o) L a := by subst h; exact fun _ => rfl

/-! ## Simulation -/

def toErr : RustGen.Fail → Err
  | .decoding e => .decoding e
  | .remote m => .remote m

/-- A result of the model of decoders, for code in which errors return from the function. -/
def early (g : α → β) : RustGen.R α → Res β
  | .ok a => .ok (g a)
  | .err e => .ret (.err (toErr e))
  | .panic => .panic
  | .bad => .bad
  | .overflow => .overflow

/-- The same as a value of type `Result`. -/
def asResult (g : α → RV) : RustGen.R α → Res RV
  | .ok a => .ok (.ok (g a))
  | .err e => .ok (.err (toErr e))
  | .panic => .panic
  | .bad => .bad
  | .overflow => .overflow

/-- With local variables `L` the code does what `x` does, and leaves the local variables `l a`. -/
def Sim (m : M β) (L : Locals) (x : RustGen.D α) (g : α → β) (l : α → Locals) : Prop :=
  ∀ c, ∃ L', m ⟨c, L⟩ = (early g (x c).1, ⟨(x c).2, L'⟩) ∧ ∀ a, (x c).1 = .ok a → L' = l a

/-- The code does what `x` does, with a `Result` as its value. -/
def Call (m : M RV) (L : Locals) (x : RustGen.D α) (g : α → RV) : Prop := ∀ c, m ⟨c, L⟩ = (asResult g (x c).1, ⟨(x c).2, L⟩)

/-- What a call of a function gives, by what its body does. -/
def returns : Res (Option RV) → Res RV
  | .ok (.some v) => .ok v
  | .ok .none => .bad
  | .ret v => .ok v
  | .panic => .panic
  | .bad => .bad
  | .overflow => .overflow

/-- The body of a function does what `x` does. -/
def Body (m : M (Option RV)) (L : Locals) (x : RustGen.D α) (g : α → RV) : Prop :=
  ∀ c, ∃ r L', m ⟨c, L⟩ = (r, ⟨(x c).2, L'⟩) ∧ returns r = asResult g (x c).1

theorem d_bind (x : RustGen.D α) (f : α → RustGen.D β) (c : Cursor) : (x >>= f) c = match x c with
    | (.ok a, c) => f a c
    | (.err e, c) => (.err e, c)
    | (.panic, c) => (.panic, c)
    | (.bad, c) => (.bad, c)
    | (.overflow, c) => (.overflow, c) := rfl

theorem Sim.bind {m : M β} {k : β → M γ} {L : Locals} {α' : Type} {x : RustGen.D α} {y : α → RustGen.D α'} {g : α → β} {g' : α' → γ} {l : α → Locals} {l' : α' → Locals}
    (h : Sim m L x g l) (hk : ∀ a, Sim (k (g a)) (l a) (y a) g' l') : Sim (m >>= k) L (x >>= y) g' l' := by
  intro c
  obtain ⟨L', h1, h2⟩ := h c
  rw [bind_apply, h1, d_bind]
  rcases hx : x c with ⟨r, c'⟩
  rw [hx] at h2
  cases r with
  | ok a =>
    simp only [early]
    rw [h2 a rfl]
    exact hk a c'
  | _ => exact ⟨L', rfl, by simp⟩

theorem Sim.bindBody {m : M β} {k : β → M (Option RV)} {L : Locals} {α' : Type} {x : RustGen.D α} {y : α → RustGen.D α'} {g : α → β} {g' : α' → RV} {l : α → Locals}
    (h : Sim m L x g l) (hk : ∀ a, Body (k (g a)) (l a) (y a) g') : Body (m >>= k) L (x >>= y) g' := by
  intro c
  obtain ⟨L', h1, h2⟩ := h c
  rw [bind_apply, h1, d_bind]
  rcases hx : x c with ⟨r, c'⟩
  rw [hx] at h2
  cases r with
  | ok a =>
    simp only [early]
    rw [h2 a rfl]
    exact hk a c'
  | _ => exact ⟨_, L', rfl, rfl⟩

theorem Sim.pure {m : M β} {L : Locals} {b : β} (h : Val m L b) : Sim m L (Pure.pure () : RustGen.D PUnit) (fun _ => b) (fun _ => L) := by
  intro c
  exact ⟨L, h c, fun _ _ => rfl⟩

theorem Val.sim {m : M β} {k : β → M γ} {L : Locals} {b : β} {x : RustGen.D α} {g : α → γ} {l : α → Locals} (h : Val m L b) (hk : Sim (k b) L x g l) :
    Sim (m >>= k) L x g l := by
  intro c
  rw [bind_ok (h c)]
  exact hk c

theorem Val.call {m : M β} {k : β → M RV} {L : Locals} {b : β} {x : RustGen.D α} {g : α → RV} (h : Val m L b) (hk : Call (k b) L x g) :
    Call (m >>= k) L x g := by
  intro c
  rw [bind_ok (h c)]
  exact hk c

/-- A value that is computed from the value of the code. -/
theorem Sim.map {m : M β} {k : β → M γ} {L : Locals} {x : RustGen.D α} {g : α → β} {g' : α → γ} {l : α → Locals}
    (h : Sim m L x g l) (hk : ∀ a, Val (k (g a)) (l a) (g' a)) : Sim (m >>= k) L x g' l := by
  intro c
  obtain ⟨L', h1, h2⟩ := h c
  rw [bind_apply, h1]
  rcases hx : x c with ⟨r, c'⟩
  rw [hx] at h2
  cases r with
  | ok a =>
    simp only [early]
    rw [h2 a rfl]
    exact ⟨_, hk a c', by simp⟩
  | _ => exact ⟨L', rfl, by simp⟩

end

/-! ## Variables -/

theorem lookup_cons_ne {α : Type} {n m : Ident} (h : n ≠ m) (v : α) (l : List (Ident × α)) : ((m, v) :: l).lookup n = l.lookup n := by
  have : (n == m) = false := by simpa using h
  rw [List.lookup, this]

theorem lookup_cons_self {α : Type} (n : Ident) (v : α) (l : List (Ident × α)) : ((n, v) :: l).lookup n = some v := by
  simp [List.lookup]

/-- Values that are no functions. -/
def RV.plain : RV → Bool
  | .func _ _ => false
  | _ => true

section
variable {P : List Item} {std : Std} {trait : Ident → Ident → List RV → M RV} {local_ : Sig → Stmt → List RV → M RV} {L : Locals} {α : Type}

theorem eval_var {n : Ident} {m : Bool} {v : RV} (h : L.lookup n = some (m, v)) (hv : v.plain = true) : Val (eval P std trait local_ (var n)) L v := by
  intro c
  show eval P std trait local_ (.path [n]) ⟨c, L⟩ = _
  rw [eval, bind_ok (s' := ⟨c, L⟩) (a := some v) (by simp [get, h])]
  cases v <;> first | rfl | cases hv

/-- The names of the library that every file imports. -/
structure Ready (P : List Item) : Prop where
  enc : imported P [go!"polyglot_rs", go!"Encoder"] = true
  dec : imported P [go!"polyglot_rs", go!"Decoder"] = true
  kind : imported P [go!"polyglot_rs", go!"Kind"] = true
  err : imported P [go!"polyglot_rs", go!"DecodingError"] = true

theorem eval_path2 {a b : Ident} {v : RV} (h : pathValue P a b = some v) : Val (eval P std trait local_ (.path [a, b])) L v := by
  rw [eval, h]; exact fun _ => rfl

theorem eval_kindOf (hP : Ready P) {k : PKind} {kk : Rust.Kind} (h : RustGen.getKind k = some kk) : Val (eval P std trait local_ (kindOf k)) L (.kind kk) := by
  apply eval_path2
  rw [pathValue, if_pos ⟨rfl, hP.kind⟩]
  revert kk
  cases k <;> intro kk h <;> cases h <;> rfl

theorem eval_error (hP : Ready P) {n : Ident} {e : Rust.DecodingError} (h : errors.lookup n = some e) :
    Val (eval P std trait local_ (errorPath n)) L (.error (.decoding e)) := by
  apply eval_path2
  rw [pathValue, if_neg (by rintro ⟨h, _⟩; revert h; decide +kernel), if_pos ⟨rfl, hP.err⟩, h]; rfl

/-! ## Arguments -/

theorem args_nil : Val (evalArgs P std trait local_ .anil) L [] := by rw [evalArgs]; exact fun _ => rfl

theorem args_cons {a r : Expr} {v : RV} {vs : List RV} (h : Val (eval P std trait local_ a) L v) (hr : Val (evalArgs P std trait local_ r) L vs) :
    Val (evalArgs P std trait local_ (.acons a r)) L (v :: vs) := by
  rw [evalArgs]
  exact h.bind (hr.bind (.pure _ _))

theorem args_one {a : Expr} {v : RV} (h : Val (eval P std trait local_ a) L v) : Val (evalArgs P std trait local_ (args1 a)) L [v] := args_cons h args_nil

theorem args_sim {a : Expr} {x : RustGen.D α} {g : α → RV} {l : α → Locals} (h : Sim (eval P std trait local_ a) L x g l) :
    Sim (evalArgs P std trait local_ (args1 a)) L x (fun a => [g a]) l := by
  show Sim (evalArgs P std trait local_ (.acons a .anil)) L x _ l
  rw [evalArgs]
  exact h.map fun a => args_nil.bind (.pure _ _)

/-! ## Method calls -/

/-- Methods that change a variable. -/
def changing (n : Ident) : Bool := n = go!"push" ∨ n = go!"insert"

theorem eval_method {e : Expr} {n : Ident} {args : Expr} (hn : changing n = false) : eval P std trait local_ (.method e n args) = (do
    let v ← eval P std trait local_ e
    let vs ← evalArgs P std trait local_ args
    method P std trait v n vs) := by
  have hn' : ¬ (n = go!"push" ∨ n = go!"insert") := by simpa [changing] using hn
  by_cases he : ∃ x, e = .path [x]
  · obtain ⟨x, rfl⟩ := he
    conv => lhs; rw [eval]
    rw [if_neg hn']
  · rw [eval, if_neg hn']
    exact fun x hx => he ⟨x, hx⟩

theorem eval_vb (hb : L.lookup go!"b" = some (false, .cursor)) : Val (eval P std trait local_ vb) L .cursor := eval_var hb rfl

theorem eval_cursorMethod (hP : Ready P) (hb : L.lookup go!"b" = some (false, .cursor)) {n : Ident} {args : Expr} {vs : List RV} (hn : changing n = false)
    (ha : Val (evalArgs P std trait local_ args) L vs) (c : Cursor) :
    eval P std trait local_ (.method vb n args) ⟨c, L⟩ = cursorMethod std n vs ⟨c, L⟩ := by
  rw [eval_method hn, bind_ok (eval_vb hb c), bind_ok (ha c)]
  show method P std trait .cursor n vs _ = _
  unfold method
  simp only [peel]
  rw [if_pos ⟨hP.enc, hP.dec⟩]

theorem call_liftDec (x : Rust.Dec α) (g : α → RV) (L : Locals) : Call (liftDec x g) L (RustGen.call x) g := by
  intro c
  simp only [liftDec, RustGen.call]
  split <;> simp_all [asResult, toErr]

theorem Call.tr {e : Expr} {x : RustGen.D α} {g : α → RV} (h : Call (eval P std trait local_ e) L x g) : Sim (eval P std trait local_ (.tr e)) L x g (fun _ => L) := by
  intro c
  rw [eval, bind_apply, h c]
  rcases hx : x c with ⟨r, c'⟩
  cases r with
  | ok a => exact ⟨L, rfl, by simp⟩
  | err e => exact ⟨L, rfl, by simp⟩
  | _ => exact ⟨L, rfl, by simp⟩

end

end RustRun
