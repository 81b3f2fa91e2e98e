import Verif.Text.LexFacts
import Verif.Text.Template

/-!
# What a template prints, as tokens

Rules for proving that executing a template succeeds and that the printed text has certain tokens.
-/

namespace Tmpl

open Utils Text

variable {V : Type}

/-- Sequences of nodes one after the other. -/
def Body.app : Body → Body → Body
  | .nil, b => b
  | .text s r, b => .text s (r.app b)
  | .action e r, b => .action e (r.app b)
  | .assign v e r, b => .assign v e (r.app b)
  | .ite e t f r, b => .ite e t f (r.app b)
  | .range i v e c r, b => .range i v e c (r.app b)
  | .template n e r, b => .template n e (r.app b)

/-- The first `n` nodes. -/
def Body.take : Nat → Body → Body
  | 0, _ => .nil
  | _ + 1, .nil => .nil
  | n + 1, .text s r => .text s (r.take n)
  | n + 1, .action e r => .action e (r.take n)
  | n + 1, .assign v e r => .assign v e (r.take n)
  | n + 1, .ite e t f r => .ite e t f (r.take n)
  | n + 1, .range i v e c r => .range i v e c (r.take n)
  | n + 1, .template m e r => .template m e (r.take n)

/-- The nodes after the first `n`. -/
def Body.drop : Nat → Body → Body
  | 0, b => b
  | _ + 1, .nil => .nil
  | n + 1, .text _ r => r.drop n
  | n + 1, .action _ r => r.drop n
  | n + 1, .assign _ _ r => r.drop n
  | n + 1, .ite _ _ _ r => r.drop n
  | n + 1, .range _ _ _ _ r => r.drop n
  | n + 1, .template _ _ r => r.drop n

theorem Body.take_app_drop (n : Nat) (b : Body) : (b.take n).app (b.drop n) = b := by
  induction b generalizing n with
  | nil => cases n <;> rfl
  | _ => cases n with
    | zero => rfl
    | succ n => simp_all [Body.take, Body.drop, Body.app]

/-- Like `exec`, with the variables at the end. -/
def execE (L : Lang V) (call : Nat → V → Option Bytes) : Body → Env V → V → Option (Bytes × Env V)
  | .nil, env, _ => some ([], env)
  | .text s rest, env, dot => do let r ← execE L call rest env dot; some (s ++ r.1, r.2)
  | .action e rest, env, dot => do
    let a ← L.print (← eval1 L env dot e)
    let r ← execE L call rest env dot
    some (a ++ r.1, r.2)
  | .assign v e rest, env, dot => do
    let a ← eval1 L env dot e
    execE L call rest ((v, a) :: env) dot
  | .ite e t f rest, env, dot => do
    let a ← eval1 L env dot e
    let b ← if L.truth a then exec L call t env dot else exec L call f env dot
    let r ← execE L call rest env dot
    some (b ++ r.1, r.2)
  | .range i v e b rest, env, dot => do
    let xs ← L.iter (← eval1 L env dot e)
    let a ← concat (xs.map fun x => exec L call b (round i v x env) x.2)
    let r ← execE L call rest env dot
    some (a ++ r.1, r.2)
  | .template n e rest, env, dot => do
    let a ← call n (← eval1 L env dot e)
    let r ← execE L call rest env dot
    some (a ++ r.1, r.2)

theorem exec_app {L : Lang V} {call : Nat → V → Option Bytes} {b : Body} {dot : V} {env' : Env V} {t : Bytes} (p : Body) {env : Env V} {a : Bytes}
    (hp : execE L call p env dot = some (a, env')) (hb : exec L call b env' dot = some t) : exec L call (p.app b) env dot = some (a ++ t) := by
  induction p generalizing env a with
  | nil => simp only [execE, Option.some.injEq, Prod.mk.injEq] at hp; obtain ⟨rfl, rfl⟩ := hp; simpa [Body.app] using hb
  | text s r ih =>
    simp only [execE, Option.bind_eq_bind, Option.bind_eq_some_iff, Option.some.injEq, Prod.mk.injEq] at hp
    obtain ⟨x, hx, rfl, rfl⟩ := hp
    simp [Body.app, exec, ih hx]
  | action e r ih =>
    simp only [execE, Option.bind_eq_bind, Option.bind_eq_some_iff, Option.some.injEq, Prod.mk.injEq] at hp
    obtain ⟨v, hv, a', ha, x, hx, rfl, rfl⟩ := hp
    simp [Body.app, exec, ih hx, hv, ha]
  | assign v e r ih =>
    simp only [execE, Option.bind_eq_bind, Option.bind_eq_some_iff] at hp
    obtain ⟨v, hv, hx⟩ := hp
    simp [Body.app, exec, ih hx, hv]
  | ite e t f r _ _ ih =>
    simp only [execE, Option.bind_eq_bind, Option.bind_eq_some_iff, Option.some.injEq, Prod.mk.injEq] at hp
    obtain ⟨v, hv, hp⟩ := hp
    split at hp
    all_goals
      simp only [Option.bind_eq_some_iff, Option.some.injEq, Prod.mk.injEq] at hp
      obtain ⟨a', ha, x, hx, rfl, rfl⟩ := hp
      simp [Body.app, exec, ih hx, hv, ha, *]
  | range i v e c r _ ih =>
    simp only [execE, Option.bind_eq_bind, Option.bind_eq_some_iff, Option.some.injEq, Prod.mk.injEq] at hp
    obtain ⟨v, hv, a', ha, y, hy, x, hx, rfl, rfl⟩ := hp
    simp only [Body.app, exec, ih hx, hv, ha, hy, Option.bind_eq_bind, Option.bind_some, List.append_assoc]
  | template n e r ih =>
    simp only [execE, Option.bind_eq_bind, Option.bind_eq_some_iff, Option.some.injEq, Prod.mk.injEq] at hp
    obtain ⟨v, hv, a', ha, x, hx, rfl, rfl⟩ := hp
    simp [Body.app, exec, ih hx, hv, ha]

/-- Some text is printed, and read between two tokens it consists of the tokens `ts`; `a` and `b` tell whether a newline before
and after the text is a semicolon. -/
def Shows (o : Option Bytes) (a : Bool) (ts : List Tok) (b : Bool) : Prop :=
  ∃ t, o = some t ∧ Text.run ⟨a, .none⟩ (ofBytes t) = (ts, ⟨b, .none⟩)

section
variable {L : Lang V} {call : Nat → V → Option Bytes} {env : Env V} {dot : V} {a b c : Bool} {ts us : List Tok}

theorem Shows.of {o : Option Bytes} {t : Bytes} (h : o = some t) (ht : Text.run ⟨a, .none⟩ (ofBytes t) = (ts, ⟨b, .none⟩)) : Shows o a ts b := ⟨t, h, ht⟩

theorem shows_nil : Shows (exec L call .nil env dot) a [] a := ⟨[], rfl, rfl⟩

theorem shows_app (p : Body) {rest : Body} {env' : Env V} {t : Bytes} (hp : execE L call p env dot = some (t, env'))
    (ht : Text.run ⟨a, .none⟩ (ofBytes t) = (ts, ⟨b, .none⟩)) (hr : Shows (exec L call rest env' dot) b us c) :
    Shows (exec L call (p.app rest) env dot) a (ts ++ us) c := by
  obtain ⟨x, hx, hu⟩ := hr
  exact ⟨_, exec_app p hp hx, by rw [ofBytes_append]; exact run_seq ht hu⟩

/-- The first `n` nodes print `t`. -/
theorem shows_take (n : Nat) {body : Body} {env' : Env V} {t : Bytes} (hp : execE L call (body.take n) env dot = some (t, env'))
    (ht : Text.run ⟨a, .none⟩ (ofBytes t) = (ts, ⟨b, .none⟩)) (hr : Shows (exec L call (body.drop n) env' dot) b us c) :
    Shows (exec L call body env dot) a (ts ++ us) c := by
  have := shows_app (body.take n) hp ht hr
  rwa [Body.take_app_drop] at this

theorem shows_text (s : Bytes) {rest : Body} (ht : Text.run ⟨a, .none⟩ (ofBytes s) = (ts, ⟨b, .none⟩)) (hr : Shows (exec L call rest env dot) b us c) :
    Shows (exec L call (.text s rest) env dot) a (ts ++ us) c := by
  obtain ⟨x, hx, hu⟩ := hr
  exact ⟨s ++ x, by simp [exec, hx], by rw [ofBytes_append]; exact run_seq ht hu⟩

theorem shows_assign (v : Nat) (e : Expr) {rest : Body} {x : V} (he : eval1 L env dot e = some x) (hr : Shows (exec L call rest ((v, x) :: env) dot) a ts b) :
    Shows (exec L call (.assign v e rest) env dot) a ts b := by
  obtain ⟨t, ht, hu⟩ := hr
  exact ⟨t, by simp [exec, he, ht], hu⟩

theorem shows_ite (e : Expr) {t f rest : Body} {x : V} (he : eval1 L env dot e = some x)
    (hb : Shows (if L.truth x then exec L call t env dot else exec L call f env dot) a ts b) (hr : Shows (exec L call rest env dot) b us c) :
    Shows (exec L call (.ite e t f rest) env dot) a (ts ++ us) c := by
  obtain ⟨y, hy, hv⟩ := hb
  obtain ⟨x, hx, hu⟩ := hr
  exact ⟨y ++ x, by
    simp only [exec, he, hx, Option.bind_eq_bind, Option.bind_some]
    split at hy <;> simp [hy, *], by rw [ofBytes_append]; exact run_seq hv hu⟩

theorem shows_template (n : Nat) (e : Expr) {rest : Body} {x : V} (he : eval1 L env dot e = some x) (hb : Shows (call n x) a ts b)
    (hr : Shows (exec L call rest env dot) b us c) : Shows (exec L call (.template n e rest) env dot) a (ts ++ us) c := by
  obtain ⟨y, hy, hv⟩ := hb
  obtain ⟨x, hx, hu⟩ := hr
  exact ⟨y ++ x, by simp only [exec, he, hx, hy, Option.bind_eq_bind, Option.bind_some], by rw [ofBytes_append]; exact run_seq hv hu⟩

theorem concat_shows {α : Type} (l : List α) (f : α → Option Bytes) (g : α → List Tok) (h : ∀ x ∈ l, Shows (f x) a (g x) a) :
    Shows (concat (l.map f)) a (l.flatMap g) a := by
  induction l with
  | nil => exact ⟨[], rfl, rfl⟩
  | cons x l ih =>
    obtain ⟨t, ht, hu⟩ := ih fun y hy => h y (List.mem_cons_of_mem _ hy)
    obtain ⟨s, hs, hv⟩ := h x (List.mem_cons_self ..)
    refine ⟨s ++ t, by simp [concat, hs, ht], ?_⟩
    rw [ofBytes_append, List.flatMap_cons]; exact run_seq hv hu

/-- A loop whose rounds are each between two tokens. -/
theorem shows_range (i : Option Nat) (v : Nat) (e : Expr) {body rest : Body} {x : V} {l : List (V × V)} (he : eval1 L env dot e = some x)
    (hl : L.iter x = some l) (g : V × V → List Tok)
    (hb : ∀ y ∈ l, Shows (exec L call body (round i v y env) y.2) a (g y) a)
    (hr : Shows (exec L call rest env dot) a us c) : Shows (exec L call (.range i v e body rest) env dot) a (l.flatMap g ++ us) c := by
  obtain ⟨y, hy, hv⟩ := concat_shows l _ g hb
  obtain ⟨x, hx, hu⟩ := hr
  exact ⟨y ++ x, by simp only [exec, he, hl, hx, hy, Option.bind_eq_bind, Option.bind_some], by rw [ofBytes_append]; exact run_seq hv hu⟩

theorem Shows.cast {o : Option Bytes} {ts' : List Tok} (h : Shows o a ts b) (e : ts = ts') : Shows o a ts' b := e ▸ h

end

end Tmpl
