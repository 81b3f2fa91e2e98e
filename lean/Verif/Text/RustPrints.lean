import Verif.Text.Prints
import Verif.Text.RustProgram
import Verif.Text.GoPrintAll

/-!
# What a template prints, as Rust tokens

The rules of `Prints.lean` for the lexer of `RustLex.lean`.
-/

namespace RustText

open Utils Tmpl RustLex
open Text (Frag Sym ofBytes ofBytes_append isLetter isWordChar)
open GoText (Chunks render flat ofBytes_render names uses)

variable {V : Type}

/-- Some text is printed, and reading it takes the lexer from `a` to `b` and gives the tokens `ts`. -/
def Shows (o : Option Bytes) (a : Cur) (ts : List Tok) (b : Cur) : Prop :=
  ∃ t, o = some t ∧ RustLex.run a (ofBytes t) = (ts, b)

section
variable {L : Lang V} {call : Nat → V → Option Bytes} {env : Env V} {dot : V} {a b c : Cur} {ts us : List Tok}

theorem Shows.of {o : Option Bytes} {t : Bytes} (h : o = some t) (ht : RustLex.run a (ofBytes t) = (ts, b)) : Shows o a ts b := ⟨t, h, ht⟩

theorem shows_nil : Shows (exec L call .nil env dot) a [] a := ⟨[], rfl, rfl⟩

/-- The first `n` nodes print `t`. -/
theorem shows_take (n : Nat) {body : Body} {env' : Env V} {t : Bytes} (hp : execE L call (body.take n) env dot = some (t, env'))
    (ht : RustLex.run a (ofBytes t) = (ts, b)) (hr : Shows (exec L call (body.drop n) env' dot) b us c) :
    Shows (exec L call body env dot) a (ts ++ us) c := by
  obtain ⟨x, hx, hu⟩ := hr
  have := exec_app (body.take n) hp hx
  rw [Body.take_app_drop] at this
  exact ⟨_, this, by rw [ofBytes_append]; exact run_seq ht hu⟩

theorem shows_text (s : Bytes) {rest : Body} (ht : RustLex.run a (ofBytes s) = (ts, b)) (hr : Shows (exec L call rest env dot) b us c) :
    Shows (exec L call (.text s rest) env dot) a (ts ++ us) c := by
  obtain ⟨x, hx, hu⟩ := hr
  exact ⟨s ++ x, by simp [exec, hx], by rw [ofBytes_append]; exact run_seq ht hu⟩

theorem shows_assign (v : Nat) (e : Expr) {rest : Body} {x : V} (he : eval1 L env dot e = some x) (hr : Shows (exec L call rest ((v, x) :: env) dot) a ts b) :
    Shows (exec L call (.assign v e rest) env dot) a ts b := by
  obtain ⟨t, ht, hu⟩ := hr
  exact ⟨t, by simp [exec, he, ht], hu⟩

theorem shows_ite (e : Expr) {t f rest : Body} {x : V} (he : eval1 L env dot e = some x)
    (hb : Shows (if L.truth x then exec L call t env dot else exec L call f env dot) a ts b) (hr : Shows (exec L call rest env dot) b us c) :
    Shows (exec L call (.ite e t f rest) env dot) a (ts ++ us) c := by
  obtain ⟨y, hy, hv⟩ := hb
  obtain ⟨x, hx, hu⟩ := hr
  exact ⟨y ++ x, by
    simp only [exec, he, hx, Option.bind_eq_bind, Option.bind_some]
    split at hy <;> simp [hy, *], by rw [ofBytes_append]; exact run_seq hv hu⟩

theorem shows_template (n : Nat) (e : Expr) {rest : Body} {x : V} (he : eval1 L env dot e = some x) (hb : Shows (call n x) a ts b)
    (hr : Shows (exec L call rest env dot) b us c) : Shows (exec L call (.template n e rest) env dot) a (ts ++ us) c := by
  obtain ⟨y, hy, hv⟩ := hb
  obtain ⟨x, hx, hu⟩ := hr
  exact ⟨y ++ x, by simp only [exec, he, hx, hy, Option.bind_eq_bind, Option.bind_some], by rw [ofBytes_append]; exact run_seq hv hu⟩

theorem concat_shows {α : Type} (l : List α) (f : α → Option Bytes) (g : α → List Tok) (h : ∀ x ∈ l, Shows (f x) a (g x) a) :
    Shows (concat (l.map f)) a (l.flatMap g) a := by
  induction l with
  | nil => exact ⟨[], rfl, rfl⟩
  | cons x l ih =>
    obtain ⟨t, ht, hu⟩ := ih fun y hy => h y (List.mem_cons_of_mem _ hy)
    obtain ⟨s, hs, hv⟩ := h x (List.mem_cons_self ..)
    refine ⟨s ++ t, by simp [concat, hs, ht], ?_⟩
    rw [ofBytes_append, List.flatMap_cons]; exact run_seq hv hu

/-- A loop whose rounds are each between two tokens. -/
theorem shows_range (i : Option Nat) (v : Nat) (e : Expr) {body rest : Body} {x : V} {l : List (V × V)} (he : eval1 L env dot e = some x)
    (hl : L.iter x = some l) (g : V × V → List Tok)
    (hb : ∀ y ∈ l, Shows (exec L call body (round i v y env) y.2) a (g y) a)
    (hr : Shows (exec L call rest env dot) a us c) : Shows (exec L call (.range i v e body rest) env dot) a (l.flatMap g ++ us) c := by
  obtain ⟨y, hy, hv⟩ := concat_shows l _ g hb
  obtain ⟨x, hx, hu⟩ := hr
  exact ⟨y ++ x, by simp only [exec, he, hl, hx, hy, Option.bind_eq_bind, Option.bind_some], by rw [ofBytes_append]; exact run_seq hv hu⟩

theorem Shows.cast {o : Option Bytes} {ts' : List Tok} (h : Shows o a ts b) (e : ts = ts') : Shows o a ts' b := e ▸ h

theorem run_call {L : Lang Val} {defs : List (Nat × Body)} {n : Nat} {b : Body} (h : defs.lookup n = some b) (fuel : Nat) (v : Val) :
    Tmpl.run L defs (fuel + 1) n v = exec L (Tmpl.run L defs fuel) b [(0, v)] v := by
  simp [Tmpl.run, h]

end

/-! ## Texts with named parts -/

/-- The tokens of a text with names, from those of the text with holes. -/
theorem run_render {c : Chunks} (ts : List Tok) (h : RustLex.run .none (flat c) = (ts, .none)) {σ : Nat → Bytes}
    (hs : List Nat) (hu : uses hs (flat c) = true) {ts' : List Tok} (ht : ts.map (Tok.fill σ) = ts') (hσ : ∀ i ∈ hs, IsWord (σ i)) :
    RustLex.run .none (ofBytes (render σ c)) = (ts', .none) := by
  rw [ofBytes_render, run_fill_between σ h, ht]
  intro i hi
  simp only [uses, List.all_eq_true] at hu
  exact hσ i (by simpa using hu _ hi)

open GoText in
/-- The tokens of the text with holes (computed by the kernel for every kind `k`) and which holes there are; it remains to prove
that the names for them are identifiers. -/
macro "rlex_cases " k:ident ts:term:max hs:term:max : tactic => `(tactic|
  (refine RustText.run_render $ts ?_ $hs ?_ ?_ ?_
   · cases $k:ident <;> first | contradiction | decide +kernel
   · cases $k:ident <;> first | contradiction | decide +kernel
   · cases $k:ident <;> first | contradiction | kernel_rfl))

/-- The same without a kind. -/
macro "rlex_by " ts:term:max hs:term:max : tactic => `(tactic|
  (refine RustText.run_render $ts ?_ $hs ?_ ?_ ?_
   · decide +kernel
   · decide +kernel
   · kernel_rfl))

/-! ## Loops -/

section
variable {privacy : Bytes} {call : Nat → Val → Option Bytes} {env : Env Val} {dot : Val} {a c : Cur} {us : List Tok}

/-- `range $i, $v := MakeIterable n` -/
theorem shows_count {α : Type} (i v : Nat) (e : Tmpl.Expr) {body rest : Body} (l : List α) (he : eval1 (lang privacy) env dot e = some (.units l.length))
    (g : Nat → α → List Tok) (hb : ∀ j x, l[j]? = some x → Shows (exec (lang privacy) call body ((v, .unit) :: (i, .int j) :: env) .unit) a (g j x) a)
    (hr : Shows (exec (lang privacy) call rest env dot) a us c) :
    Shows (exec (lang privacy) call (.range (some i) v e body rest) env dot) a ((l.mapIdx g).flatten ++ us) c := by
  have key := shows_range (L := lang privacy) (call := call) (some i) v e (body := body) (rest := rest) he rfl
    (fun y => match y.1 with | .int j => (match l[j]? with | some x => g j x | none => []) | _ => []) (a := a) ?_ hr
  · refine key.cast ?_
    congr 1
    rw [List.flatMap_def, List.map_map]
    congr 1
    refine List.ext_getElem (by simp) fun j h1 h2 => ?_
    simp only [List.length_map, List.length_range, List.length_mapIdx] at h1 h2
    simp [h2]
  · intro y hy
    simp only [List.mem_map, List.mem_range] at hy
    obtain ⟨j, hj, rfl⟩ := hy
    have := hb j l[j] (by simp [hj])
    simpa [hj, round] using this

/-- The same when the text does not depend on the index. -/
theorem shows_index {α : Type} (i v : Nat) (e : Tmpl.Expr) {body rest : Body} (l : List α) (he : eval1 (lang privacy) env dot e = some (.units l.length))
    (g : α → List Tok) (hb : ∀ j x, l[j]? = some x → Shows (exec (lang privacy) call body ((v, .unit) :: (i, .int j) :: env) .unit) a (g x) a)
    (hr : Shows (exec (lang privacy) call rest env dot) a us c) :
    Shows (exec (lang privacy) call (.range (some i) v e body rest) env dot) a (l.flatMap g ++ us) c :=
  (shows_count i v e l he (fun _ => g) hb hr).cast (by rw [GoText.flatten_mapIdx l _ g fun _ _ => rfl])

/-- `range $v := list` -/
theorem shows_list {α : Type} (v : Nat) (e : Tmpl.Expr) {body rest : Body} (l : List α) (h : α → Val) {x : Val} (he : eval1 (lang privacy) env dot e = some x)
    (hi : iter x = some (l.mapIdx fun i y => (.int i, h y)))
    (g : α → List Tok) (hb : ∀ x ∈ l, Shows (exec (lang privacy) call body ((v, h x) :: env) (h x)) a (g x) a)
    (hr : Shows (exec (lang privacy) call rest env dot) a us c) :
    Shows (exec (lang privacy) call (.range none v e body rest) env dot) a (l.flatMap g ++ us) c := by
  have key := shows_range (L := lang privacy) (call := call) none v e (body := body) (rest := rest) he hi
    (fun y => match y.1 with | .int j => (match l[j]? with | some x => g x | none => []) | _ => []) (a := a) ?_ hr
  · refine key.cast ?_
    congr 1
    rw [List.flatMap_def, List.flatMap_def]
    congr 1
    refine List.ext_getElem (by simp) fun j h1 h2 => ?_
    simp only [List.length_map, List.length_mapIdx] at h1 h2
    simp [h2]
  · intro y hy
    obtain ⟨j, hj, rfl⟩ := List.mem_mapIdx.mp hy
    have := hb l[j] (List.getElem_mem hj)
    simpa [hj, round] using this

end

/-! ## Conditions on names -/

/-- A field whose names are identifiers, of a kind that the generator supports. -/
structure FieldOk (f : GoText.FieldD) : Prop where
  name : IsWord (snakeBytes f.name)
  kind : f.kind ≠ .group
  type : (f.kind = .message ∨ f.kind = .enum) → IsWord (camelCase f.type)
  key : ∀ kk, f.shape = .map kk → GoText.IsKey kk

structure EnumOk (scope : Bytes) (e : Package.EnumD) : Prop where
  name : IsWord (camelCase (Package.qualify scope e.name))
  values : ∀ v ∈ e.values, IsWord v

/-- A message and everything inside. -/
inductive MsgOk : Bytes → GoText.MsgD → Prop where
  | mk {scope name : Bytes} {e : Bool} {fs : List GoText.FieldD} {es : List Package.EnumD} {ms : List GoText.MsgD}
    (name_ok : IsWord (camelCase (Package.qualify scope name)))
    (fields : ∀ f ∈ fs, FieldOk f)
    (enums : ∀ x ∈ es, EnumOk (Package.qualify scope name) x)
    (messages : ∀ m ∈ ms, MsgOk (Package.qualify scope name) m) : MsgOk scope (.mk name e fs es ms)

structure FileOk (f : GoText.FileD) : Prop where
  enums : ∀ x ∈ f.enums, EnumOk f.package x
  messages : ∀ m ∈ f.messages, MsgOk f.package m

/-! ## Tokens of sequences of statements -/

/-- The tokens of statements one after the other. -/
def stmts (l : List RustAst.Stmt) : List Tok := l.flatMap RustAst.Stmt.toks

theorem toks_block (l : List RustAst.Stmt) : (block l).toks = stmts l := by
  induction l with
  | nil => rfl
  | cons s l ih => simp only [block, List.foldr_cons, RustAst.Stmt.toks, stmts, List.flatMap_cons] at ih ⊢; rw [ih]

theorem stmts_append (l m : List RustAst.Stmt) : stmts (l ++ m) = stmts l ++ stmts m := by simp [stmts]

theorem stmts_flatMap {α : Type} (l : List α) (f : α → List RustAst.Stmt) : stmts (l.flatMap f) = l.flatMap fun x => stmts (f x) := by
  simp [stmts, List.flatMap_assoc]

theorem stmts_map {α : Type} (l : List α) (f : α → RustAst.Stmt) : stmts (l.map f) = l.flatMap fun x => stmts [f x] := by
  simp [stmts, List.flatMap_map]

/-- The tokens of the fields of a struct expression. -/
def fieldToks (p : RustAst.Ident × RustAst.Expr) : List Tok := .word p.1 :: .op go!":" :: p.2.toks ++ [.op go!","]

theorem toks_fieldsOf (l : List (RustAst.Ident × RustAst.Expr)) : (fieldsOf l).toks = l.flatMap fieldToks := by
  induction l with
  | nil => rfl
  | cons s l ih => simp only [fieldsOf, List.foldr_cons, RustAst.Expr.toks, List.flatMap_cons, fieldToks] at ih ⊢; rw [ih]; simp

end RustText
